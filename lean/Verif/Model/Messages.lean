import Verif.Model.Block
/-
Model of p2p/messages.go, p2p/helpers.go, p2p/protocol.go, p2p/handshake.go, p2p/server.go and the constants
of consensus/network.go. Go strings are byte lists. `String()` methods and logging are omitted. Writing to a
`bytes.Buffer` never fails, so the corresponding `Fatal` branches are omitted.
-/
namespace Gringo.P2P

/-- consensus/network.go:8 -/
def MagicCode : Bytes := [0x54, 0x34]
/-- consensus/network.go:12 -/
def ProtocolVersion : UInt32 := 1
/-- consensus/network.go:15 -/
def HeaderLen : UInt64 := 11
/-- consensus/network.go:19 -/
def MaxMsgLen : UInt64 := 20000000
/-- consensus/network.go:73 -/
def MaxBlockHeaders : Nat := 512
/-- consensus/network.go:76 -/
def MaxPeerAddrs : Nat := 256
/-- consensus/network.go:52 -/
def CapUnknown : UInt32 := 0
/-- consensus/network.go:54-60: `CapFullHist | CapUtxoHist | CapPeerList` -/
def CapFullNode : UInt32 := 7

/-- consensus/network.go:24-44. The `Type` methods give these to the messages: p2p/handshake.go:80-82, 186-188,
p2p/messages.go:194-196, consensus/block.go:394-396 and others. -/
def MsgTypeError : UInt8 := 0
@[inherit_doc MsgTypeError] def MsgTypeHand : UInt8 := 1
@[inherit_doc MsgTypeError] def MsgTypeShake : UInt8 := 2
@[inherit_doc MsgTypeError] def MsgTypePing : UInt8 := 3
@[inherit_doc MsgTypeError] def MsgTypePong : UInt8 := 4
@[inherit_doc MsgTypeError] def MsgTypeGetPeerAddrs : UInt8 := 5
@[inherit_doc MsgTypeError] def MsgTypePeerAddrs : UInt8 := 6
@[inherit_doc MsgTypeError] def MsgTypeGetHeaders : UInt8 := 7
@[inherit_doc MsgTypeError] def MsgTypeHeader : UInt8 := 8
@[inherit_doc MsgTypeError] def MsgTypeHeaders : UInt8 := 9
@[inherit_doc MsgTypeError] def MsgTypeGetBlock : UInt8 := 10
@[inherit_doc MsgTypeError] def MsgTypeBlock : UInt8 := 11
@[inherit_doc MsgTypeError] def MsgTypeGetCompactBlock : UInt8 := 12
@[inherit_doc MsgTypeError] def MsgTypeCompactBlock : UInt8 := 13
@[inherit_doc MsgTypeError] def MsgTypeStemTransaction : UInt8 := 14
@[inherit_doc MsgTypeError] def MsgTypeTransaction : UInt8 := 15

/-- p2p/messages.go:19-26 `type Header`; `magic` is a `[2]byte`. -/
structure Header where
  magic : Bytes
  type : UInt8
  len : UInt64
deriving Repr, DecidableEq

/-- p2p/messages.go:29-45 `Bytes`, 48-57 `Write` -/
def Header.bytes (h : Header) : Bytes := h.magic ++ [h.type] ++ be64 h.len

/-- p2p/messages.go:60-75, 78-80 `Read`, `validateMagic` -/
def Header.read : Rd Header := do
  let magic ← Rd.readFull 2
  if magic ≠ MagicCode then Rd.fail "invalid magic code"
  else do
    let type ← Rd.u8
    let len ← Rd.u64
    pure { magic, type, len }

/-- p2p/messages.go:83-89 `type Ping` -/
structure Ping where
  totalDifficulty : UInt64
  height : UInt64
deriving Repr, DecidableEq

/-- p2p/messages.go:92-104 -/
def Ping.bytes (p : Ping) : Bytes := be64 p.totalDifficulty ++ be64 p.height

/-- p2p/messages.go:112-119 -/
def Ping.read : Rd Ping := do
  let totalDifficulty ← Rd.u64
  let height ← Rd.u64
  pure { totalDifficulty, height }

/-- p2p/messages.go:127-129 `type Pong`: embeds `Ping`, whose `Bytes` and `Read` it inherits. -/
abbrev Pong := Ping

/-- p2p/messages.go:137-140 `type GetPeerAddrs` -/
structure GetPeerAddrs where
  capabilities : UInt32
deriving Repr, DecidableEq

/-- p2p/messages.go:143-151 -/
def GetPeerAddrs.bytes (p : GetPeerAddrs) : Bytes := be32 p.capabilities

/-- p2p/messages.go:159-162 -/
def GetPeerAddrs.read : Rd GetPeerAddrs := do
  let capabilities ← Rd.u32
  pure { capabilities }

/-- p2p/messages.go:170-175 `type PeerError` -/
structure PeerError where
  code : UInt32
  message : Bytes
deriving Repr, DecidableEq

/-- p2p/messages.go:178-191 -/
def PeerError.bytes (p : PeerError) : Bytes :=
  be32 p.code ++ be64 (UInt64.ofNat p.message.length) ++ p.message

/-- p2p/messages.go:199-217 -/
def PeerError.read (E : Env) : Rd PeerError := do
  let code ← Rd.u32
  let messageLen ← Rd.u64
  Rd.make E.maxAlloc messageLen.toNat 1
  let message ← Rd.readFull messageLen.toNat
  pure { code, message }

/-- `net.TCPAddr` without its zone, which the code never uses. -/
structure TCPAddr where
  ip : Bytes
  port : Int
deriving Repr, DecidableEq

/-- `net.IP.To4` -/
def to4 (ip : Bytes) : Option Bytes :=
  if ip.length = 4 then some ip
  else if ip.length = 16 ∧ ip.take 10 = List.replicate 10 0 ∧ (ip.drop 10).take 2 = [255, 255] then
    some (ip.drop 12)
  else none

/-- The conversion `uint16(addr.Port)` in p2p/helpers.go:51 -/
def portBits (port : Int) : UInt16 := UInt16.ofNat (port % 65536).toNat

/-- p2p/helpers.go:16-54 `serializeTCPAddr`. The IPv6 loop `for i := 0; i < 8; i += 2` writes the first
eight of the sixteen bytes. -/
def serializeTCPAddr (a : TCPAddr) : Out Bytes :=
  let ip := match to4 a.ip with
    | some ip4 => ip4
    | none => a.ip
  if ip.length = 4 then .ok ([0] ++ ip ++ be16 (portBits a.port))
  else if ip.length = 16 then .ok ([1] ++ ip.take 8 ++ be16 (portBits a.port))
  else .fatal "invalid netaddr"

/-- p2p/helpers.go:57-99 `deserializeTCPAddr`. `binary.Read(r, order, segment)` with a `uint16` that is not
a pointer (line 79) reads two bytes and then returns an error, so the IPv6 loop ends in its first round. -/
def deserializeTCPAddr : Rd TCPAddr := do
  let ipFlag ← Rd.u8
  if ipFlag = 0 then do
    let ip ← Rd.readFull 4
    let port ← Rd.u16
    pure { ip, port := port.toNat }
  else if ipFlag = 1 then do
    let _ ← Rd.readFull 2
    Rd.fail "binary.Read: invalid type uint16"
  else Rd.fail "invalid ipFlag"

/-- p2p/messages.go:225-227 `type PeerAddrs` -/
structure PeerAddrs where
  peers : List TCPAddr
deriving Repr, DecidableEq

/-- p2p/messages.go:242-244: the loop over the addresses -/
def serializeAll : List TCPAddr → Out Bytes
  | [] => .ok []
  | a :: rest => do
    let b ← serializeTCPAddr a
    let bs ← serializeAll rest
    pure (b ++ bs)

/-- p2p/messages.go:230-247 -/
def PeerAddrs.bytes (p : PeerAddrs) : Out Bytes :=
  if p.peers.length > MaxPeerAddrs then .fatal "too big peer addrs count for sending"
  else do
    let bs ← serializeAll p.peers
    pure (be32 (UInt32.ofNat p.peers.length) ++ bs)

/-- p2p/messages.go:255-276 -/
def PeerAddrs.read : Rd PeerAddrs := do
  let peersCount ← Rd.u32
  if peersCount.toNat > MaxPeerAddrs then Rd.fail "too big peer addrs count"
  else do
    let peers ← Rd.readMany peersCount.toNat deserializeTCPAddr
    pure { peers }

/-- p2p/messages.go:284-286 `type GetBlock` -/
structure GetBlock where
  hash : Bytes
deriving Repr, DecidableEq

/-- p2p/messages.go:289-295 -/
def GetBlock.bytes (g : GetBlock) : Out Bytes :=
  if g.hash.length ≠ BlockHashSize then .fatal "invalid block hash len" else .ok g.hash

/-- p2p/messages.go:303-310 -/
def GetBlock.read : Rd GetBlock := do
  let hash ← Rd.readFull BlockHashSize
  pure { hash }

/-- p2p/messages.go:353-355 `type BlockHeaders` -/
structure BlockHeaders where
  headers : List BlockHeader

/-- p2p/messages.go:370-374: the loop over the headers -/
def headersBytes : List BlockHeader → Out Bytes
  | [] => .ok []
  | h :: rest => do
    let b ← h.bytes
    let bs ← headersBytes rest
    pure (b ++ bs)

/-- p2p/messages.go:358-377 -/
def BlockHeaders.bytes (h : BlockHeaders) : Out Bytes :=
  if h.headers.length > MaxBlockHeaders then .fatal "invalid headers len in BlockHeaders"
  else do
    let bs ← headersBytes h.headers
    pure (be16 (UInt16.ofNat h.headers.length) ++ bs)

/-- p2p/messages.go:385-404. Simplification: a `BlockHeader` struct is counted as 1024 bytes in the
allocation, which is more than it takes. -/
def BlockHeaders.read (E : Env) : Rd BlockHeaders := do
  let count ← Rd.u16
  if count.toNat > MaxBlockHeaders then Rd.fail "too big block headers len from peer"
  else do
    Rd.make E.maxAlloc count.toNat 1024
    let headers ← Rd.readMany count.toNat (BlockHeader.read E)
    pure { headers }

/-- p2p/handshake.go:20-40 `type hand`. The address pointers are options. -/
structure Hand where
  version : UInt32
  capabilities : UInt32
  nonce : UInt64
  genesis : Bytes
  totalDifficulty : UInt64
  senderAddr : Option TCPAddr
  receiverAddr : Option TCPAddr
  userAgent : Bytes
deriving Repr, DecidableEq

/-- p2p/handshake.go:42-78 -/
def Hand.bytes (h : Hand) : Out Bytes :=
  match h.senderAddr, h.receiverAddr with
  | some s, some r => do
    let sb ← serializeTCPAddr s
    let rb ← serializeTCPAddr r
    pure (be32 h.version ++ be32 h.capabilities ++ be64 h.nonce ++ be64 h.totalDifficulty ++ sb ++ rb ++
      be64 (UInt64.ofNat h.userAgent.length) ++ h.userAgent ++ h.genesis)
  | _, _ => .fatal "invalid netaddr (SenderAddr/ReceiverAddr)"

/-- p2p/handshake.go:84-141 -/
def Hand.read (E : Env) : Rd Hand := do
  let version ← Rd.u32
  if version ≠ ProtocolVersion then Rd.fail "incompatibility protocol version"
  else do
    let capabilities ← Rd.u32
    let nonce ← Rd.u64
    let totalDifficulty ← Rd.u64
    let sender ← deserializeTCPAddr
    let receiver ← deserializeTCPAddr
    let userAgentLen ← Rd.u64
    Rd.make E.maxAlloc userAgentLen.toNat 1
    let userAgent ← Rd.readFull userAgentLen.toNat
    let genesis ← Rd.readFull 32
    pure { version, capabilities, nonce, genesis, totalDifficulty, senderAddr := some sender,
           receiverAddr := some receiver, userAgent }

/-- p2p/handshake.go:145-160 `type shake` -/
structure Shake where
  version : UInt32
  capabilities : UInt32
  totalDifficulty : UInt64
  userAgent : Bytes
  genesis : Bytes
deriving Repr, DecidableEq

/-- p2p/handshake.go:162-184 -/
def Shake.bytes (h : Shake) : Bytes :=
  be32 h.version ++ be32 h.capabilities ++ be64 h.totalDifficulty ++
    be64 (UInt64.ofNat h.userAgent.length) ++ h.userAgent ++ h.genesis

/-- p2p/handshake.go:190-228 -/
def Shake.read (E : Env) : Rd Shake := do
  let version ← Rd.u32
  if version ≠ ProtocolVersion then Rd.fail "incompatibility protocol version"
  else do
    let capabilities ← Rd.u32
    let totalDifficulty ← Rd.u64
    let userAgentLen ← Rd.u64
    Rd.make E.maxAlloc userAgentLen.toNat 1
    let userAgent ← Rd.readFull userAgentLen.toNat
    let genesis ← Rd.readFull 32
    pure { version, capabilities, totalDifficulty, userAgent, genesis }

/-- p2p/protocol.go:32-53 `WriteMessage` on a body and a type, to a connection that takes everything: the
bytes written and the returned count. (A connection that fails is in Model/Writer.lean, and with
the goroutines around it in Model/Lifecycle.lean.) -/
def writeMessage (type : UInt8) (data : Bytes) : Bytes × UInt64 :=
  ((Header.mk MagicCode type (UInt64.ofNat data.length)).bytes ++ data, UInt64.ofNat data.length + HeaderLen)

/-- p2p/protocol.go:56-75 `ReadMessage` for a message type and its decoder: the message and the returned
count. -/
def readMessage {α : Type} (type : UInt8) (rd : Rd α) : Rd (α × UInt64) := do
  let header ← Rd.limit HeaderLen.toNat Header.read
  if header.type ≠ type then Rd.fail "receive unexpected message type"
  else if header.len > MaxMsgLen then Rd.fail "too big message size"
  else do
    let a ← Rd.limit header.len.toNat rd
    pure (a, HeaderLen + header.len)

/-- p2p/server.go:16-19 `type nonceList` -/
structure NonceList where
  idx : Nat
  list : List UInt64
deriving Repr, DecidableEq

/-- p2p/server.go:13 -/
def noncesCap : Nat := 100

/-- p2p/server.go:22-28, 48-54 `Init`, called once at the start, with the random numbers as an argument. -/
def NonceList.init (random : List UInt64) : NonceList := { idx := 0, list := random.take noncesCap }

/-- p2p/server.go:31-34 `NextNonce` -/
def NonceList.next (n : NonceList) : Out (UInt64 × NonceList) :=
  let idx := (n.idx + 1) % noncesCap
  match n.list[idx]? with
  | some x => .ok (x, { n with idx })
  | none => .panic "index out of range"

/-- p2p/server.go:36-44 `Consist` -/
def NonceList.consist (n : NonceList) (nonce : UInt64) : Bool := n.list.any (nonce == ·)

/-- p2p/protocol.go:16 `"gringo v0.0.1"` -/
def userAgent : Bytes := [103, 114, 105, 110, 103, 111, 32, 118, 48, 46, 48, 46, 49]

/-- p2p/handshake.go:234,241-250: the hand `shakeByHand` sends. The sender address is the result of resolving
"0.0.0.0:0"; `net` returns it as 16 bytes, `::ffff:0.0.0.0`. -/
def ownHand (nonce : UInt64) (receiver : TCPAddr) (genesis : Bytes) : Hand :=
  { version := ProtocolVersion, capabilities := CapFullNode, nonce, genesis, totalDifficulty := 1,
    senderAddr := some { ip := List.replicate 10 0 ++ [255, 255, 0, 0, 0, 0], port := 0 },
    receiverAddr := some receiver, userAgent }

/-- What a handshake function does: its result, the bytes it wrote, the unread rest of the input and the
nonce list afterwards. -/
structure HsResult (α : Type) where
  result : Out α
  sent : Bytes
  rest : Bytes
  nonces : NonceList

/-- p2p/handshake.go:231-264 `shakeByHand`; `genesis` is `chain.Testnet4.Hash()`, `input` what the remote
side sends. -/
def shakeByHand (E : Env) (nonces : NonceList) (receiver : TCPAddr) (genesis input : Bytes) :
    HsResult Shake :=
  match nonces.next with
  | .ok (nonce, nonces') =>
    match (ownHand nonce receiver genesis).bytes with
    | .ok data =>
      let sent := (writeMessage MsgTypeHand data).1
      match readMessage MsgTypeShake (Shake.read E) input with
      | (.ok (sh, _), rest) => { result := .ok sh, sent, rest, nonces := nonces' }
      | (.err e, rest) => { result := .err e, sent, rest, nonces := nonces' }
      | (.panic e, rest) => { result := .panic e, sent, rest, nonces := nonces' }
      | (.fatal e, rest) => { result := .fatal e, sent, rest, nonces := nonces' }
    | .err e => { result := .err e, sent := [], rest := input, nonces := nonces' }
    | .panic e => { result := .panic e, sent := [], rest := input, nonces := nonces' }
    | .fatal e => { result := .fatal e, sent := [], rest := input, nonces := nonces' }
  | .err e => { result := .err e, sent := [], rest := input, nonces }
  | .panic e => { result := .panic e, sent := [], rest := input, nonces }
  | .fatal e => { result := .fatal e, sent := [], rest := input, nonces }

/-- p2p/handshake.go:282-287: the shake `handByShake` sends; `Genesis` is not set. -/
def ownShake : Shake :=
  { version := ProtocolVersion, capabilities := CapFullNode, totalDifficulty := 1, userAgent, genesis := [] }

/-- p2p/handshake.go:267-293 `handByShake` -/
def handByShake (E : Env) (nonces : NonceList) (input : Bytes) : HsResult Hand :=
  match readMessage MsgTypeHand (Hand.read E) input with
  | (.ok (h, _), rest) =>
    if nonces.consist h.nonce then
      { result := .err "detect connection to ourselves by nonce", sent := [], rest, nonces }
    else { result := .ok h, sent := (writeMessage MsgTypeShake ownShake.bytes).1, rest, nonces }
  | (.err e, rest) => { result := .err e, sent := [], rest, nonces }
  | (.panic e, rest) => { result := .panic e, sent := [], rest, nonces }
  | (.fatal e, rest) => { result := .fatal e, sent := [], rest, nonces }

end Gringo.P2P
