import Verif.Model.Messages
/-
Model of p2p/peer.go `readHandler`: how the bytes a peer sends become messages handed to
`Syncer.ProcessMessage`.
-/
namespace Gringo.P2P

/-- What `readHandler` hands to `ProcessMessage`: one case per call in p2p/peer.go:202-319. -/
inductive Message (E : Env) where
  | ping (m : Ping)
  | pong (m : Pong)
  | getPeerAddrs (m : GetPeerAddrs)
  | peerAddrs (m : PeerAddrs)
  | getHeaders (m : Locator)
  | header (m : BlockHeader)
  | headers (m : BlockHeaders)
  | getBlock (m : GetBlock)
  | block (m : Block E)
  | transaction (m : Transaction E)

/-- Run a decoder on a message body (`rl := bytes.NewReader(readBuffer)`, p2p/peer.go:200); what it leaves
unread is dropped. -/
def runBody {α β : Type} (rd : Rd α) (body : Bytes) (f : α → Out β) : Out β := (rd body).1 >>= f

/-- p2p/peer.go:202-333, the `switch header.Type`: decode the body; the message to dispatch, if any. A
`GetCompactBlock` is accepted without looking at the body, a `CompactBlock` is decoded and hashed only. The
hash of a block is computed for the log. -/
def decodeBody (E : Env) (type : UInt8) (body : Bytes) : Out (Option (Message E)) :=
  if type = MsgTypePing then runBody Ping.read body fun m => .ok (some (.ping m))
  else if type = MsgTypePong then runBody Ping.read body fun m => .ok (some (.pong m))
  else if type = MsgTypeGetPeerAddrs then runBody GetPeerAddrs.read body fun m => .ok (some (.getPeerAddrs m))
  else if type = MsgTypePeerAddrs then runBody PeerAddrs.read body fun m => .ok (some (.peerAddrs m))
  else if type = MsgTypeGetHeaders then runBody Locator.read body fun m => .ok (some (.getHeaders m))
  else if type = MsgTypeHeader then runBody (BlockHeader.read E) body fun m => .ok (some (.header m))
  else if type = MsgTypeHeaders then runBody (BlockHeaders.read E) body fun m => .ok (some (.headers m))
  else if type = MsgTypeGetBlock then runBody GetBlock.read body fun m => .ok (some (.getBlock m))
  else if type = MsgTypeBlock then runBody (Block.read E) body fun m => do
    let _ ← m.header.hash E
    pure (some (.block m))
  else if type = MsgTypeGetCompactBlock then .ok none
  else if type = MsgTypeCompactBlock then runBody (CompactBlock.read E) body fun m => do
    let _ ← m.header.hash E
    pure none
  else if type = MsgTypeTransaction then runBody (Transaction.read E) body fun m => .ok (some (.transaction m))
  else .err "received unexpected message from peer"

/-- How the loop ended. -/
inductive Ending where
  /-- the disconnect flag was set, p2p/peer.go:177 -/
  | flagged
  /-- `break out`, with the `exitError` that `Disconnect` gets -/
  | exit (reason : Option String)
  /-- a panic or `Fatal`: the process is gone -/
  | crash (what : String)
deriving Repr, DecidableEq

/-- What one iteration of the loop does. -/
inductive Step (E : Env) where
  | next (m : Option (Message E)) (counted : UInt64) (rest : Bytes)
  | stop (e : Ending)

/-- p2p/peer.go:178-333: one iteration. When the body is truncated, `exitError` is nil. -/
def readStep (E : Env) (s : Bytes) : Step E :=
  match Header.read s with
  | (.ok header, s) =>
    if header.len > MaxMsgLen then .stop (.exit (some "too big message size"))
    else
      match Rd.make E.maxAlloc header.len.toNat 1 s with
      | (.ok _, s) =>
        match Rd.readFull header.len.toNat s with
        | (.ok body, s) =>
          match decodeBody E header.type body with
          | .ok m => .next m (header.len + HeaderLen) s
          | .err e => .stop (.exit (some e))
          | .panic p => .stop (.crash p)
          | .fatal p => .stop (.crash p)
        | _ => .stop (.exit none)
      | (.err e, _) => .stop (.exit (some e))
      | (.panic p, _) => .stop (.crash p)
      | (.fatal p, _) => .stop (.crash p)
  | (.err e, _) => .stop (.exit (some e))
  | (.panic p, _) => .stop (.crash p)
  | (.fatal p, _) => .stop (.crash p)

/-- What the loop did: the messages handed to `ProcessMessage` in order, the value added to `bytesReceived`
and the way it ended. -/
structure Transcript (E : Env) where
  dispatched : List (Message E)
  received : UInt64
  ending : Ending

/-- p2p/peer.go:176-341 `readHandler` on a connection that delivers `s` and then ends, when the disconnect
flag is seen set after `n` iterations (or not at all, if the loop ends before). -/
def readLoop (E : Env) : Nat → Bytes → Transcript E
  | 0, _ => { dispatched := [], received := 0, ending := .flagged }
  | n + 1, s =>
    match readStep E s with
    | .stop e => { dispatched := [], received := 0, ending := e }
    | .next m c rest =>
      let t := readLoop E n rest
      { dispatched := m.toList ++ t.dispatched, received := c + t.received, ending := t.ending }

/-- `readHandler` when nobody else disconnects the peer. Every iteration that goes on consumes at least 11
bytes, so `s.length + 1` iterations are enough (`C09_enough` in Props/ReadLoop.lean: more change nothing). -/
def readHandler (E : Env) (s : Bytes) : Transcript E := readLoop E (s.length + 1) s

end Gringo.P2P
