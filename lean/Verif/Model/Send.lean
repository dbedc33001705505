import Verif.Model.Sync
/-
Model of the sending side of a connection: the `Type` and `Bytes` methods of the messages, `WriteMessage` on
them, and the `Send…` methods of p2p/peer.go.
-/
namespace Gringo.P2P

variable {E : Env}

/-- The `Type` methods: p2p/messages.go:107-109, 132-134, 154-156, 250-252, 422-424, 338-340, 380-382, 298-300,
consensus/block.go:131-133, consensus/transaction.go:81-83. -/
def Message.type : Message E → UInt8
  | .ping _ => MsgTypePing
  | .pong _ => MsgTypePong
  | .getPeerAddrs _ => MsgTypeGetPeerAddrs
  | .peerAddrs _ => MsgTypePeerAddrs
  | .getHeaders _ => MsgTypeGetHeaders
  | .header _ => MsgTypeHeader
  | .headers _ => MsgTypeHeaders
  | .getBlock _ => MsgTypeGetBlock
  | .block _ => MsgTypeBlock
  | .transaction _ => MsgTypeTransaction

/-- The `Bytes` methods: p2p/messages.go:92-104, 143-151, 230-247, 417-419 (`GetBlockHeaders`), 327-335
(`BlockHeader`), 358-377, 289-295, consensus/block.go:82-128, consensus/transaction.go:30-78. -/
def Message.bytes : Message E → Out Bytes
  | .ping m => .ok m.bytes
  | .pong m => .ok m.bytes
  | .getPeerAddrs m => .ok m.bytes
  | .peerAddrs m => m.bytes
  | .getHeaders m => m.bytes
  | .header m => m.bytes
  | .headers m => m.bytes
  | .getBlock m => m.bytes
  | .block m => m.bytes
  | .transaction m => .ok m.bytes

/-- p2p/protocol.go:32-53 `WriteMessage` of a message: what is written to a connection that takes it. -/
def Message.frame (m : Message E) : Out Bytes := do
  let data ← m.bytes
  pure (writeMessage m.type data).1

/-- p2p/peer.go:368-376 `SendPing`: the message handed to `WriteMessage`. -/
def sendPing : Out (Message E) := .ok (.ping { totalDifficulty := 1, height := 1 })

/-- p2p/peer.go:379-386 `SendBlockRequest`. Simplification: the log line `hash[:6]` panics if the capacity of
the slice is less than 6; the model has the length in place of the capacity. -/
def sendBlockRequest (hash : Bytes) : Out (Message E) :=
  if hash.length < 6 then .panic "slice bounds out of range" else .ok (.getBlock { hash })

/-- p2p/peer.go:389-392 `SendBlock` (of a block that is not nil) -/
def sendBlock (b : Block E) : Out (Message E) := .ok (.block b)

/-- p2p/peer.go:395-402 `SendPeerRequest` -/
def sendPeerRequest (capabilities : UInt32) : Out (Message E) := .ok (.getPeerAddrs { capabilities })

/-- p2p/peer.go:405-417 `SendHeaderRequest` -/
def sendHeaderRequest (locator : Locator) : Out (Message E) :=
  if locator.hashes.length > MaxLocators then .fatal "too big locator hashes"
  else .ok (.getHeaders locator)

/-- p2p/peer.go:420-423 `SendTransaction` -/
def sendTransaction (tx : Transaction E) : Out (Message E) := .ok (.transaction tx)

end Gringo.P2P
