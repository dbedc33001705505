import Verif.Model.Sync
/-
Model of p2p/peer.go:59-116, how a `Peer` comes into being, and of its read loop together with the handling of
the messages.
-/
namespace Gringo.P2P

/-- p2p/peer.go:20-57 `type Peer`: what can be seen of it. `sync` says whether the pointer to the syncer is
set. -/
structure Peer where
  sync : Bool
  addr : String
  version : UInt32
  capabilities : UInt32
  totalDifficulty : UInt64
  userAgent : Bytes
  height : UInt64
deriving Repr, DecidableEq

/-- What a call that makes a peer does: its result, the bytes it wrote to the connection, the input it did not
read, the nonce list afterwards and whether there is a connection now that was opened and not closed. -/
structure Attempt where
  result : Out Peer
  sent : Bytes
  unread : Bytes
  nonces : NonceList
  isOpen : Bool

/-- p2p/peer.go:59-94 `NewPeer`. `dial` is `net.DialTCP`: no connection, or the remote address and what the
remote side sends. -/
def newPeer (E : Env) (resolve : String → Option TCPAddr) (dial : TCPAddr → Option (TCPAddr × Bytes))
    (nonces : NonceList) (genesis : Bytes) (addr : String) : Attempt :=
  match resolve addr with
  | none => { result := .err "resolve", sent := [], unread := [], nonces, isOpen := false }
  | some a =>
    match dial a with
    | none => { result := .err "dial", sent := [], unread := [], nonces, isOpen := false }
    | some (remote, input) =>
      let hs := shakeByHand E nonces remote genesis input
      { result := do
          let shake ← hs.result
          pure { sync := true, addr, version := shake.version, capabilities := shake.capabilities,
                 totalDifficulty := shake.totalDifficulty, userAgent := shake.userAgent, height := 0 }
        sent := hs.sent, unread := hs.rest, nonces := hs.nonces, isOpen := true }

/-- p2p/peer.go:97-116 `AcceptNewPeer` on an open connection on which the remote side sends `input`. Nothing in
the repository calls it. -/
def acceptNewPeer (E : Env) (nonces : NonceList) (input : Bytes) : Attempt :=
  let hs := handByShake E nonces input
  { result := do
      let hand ← hs.result
      pure { sync := false, addr := "", version := hand.version, capabilities := hand.capabilities,
             totalDifficulty := hand.totalDifficulty, userAgent := hand.userAgent, height := 0 }
    sent := hs.sent, unread := hs.rest, nonces := hs.nonces, isOpen := true }

/-- How the read loop of a peer ended: by itself, or because a call of `ProcessMessage` did not return. -/
inductive Stop where
  | loop (e : Ending)
  | handler (e : Ended)
deriving Repr, DecidableEq

/-- What the read loop of a peer did: the node afterwards, what was sent because of the messages, in order, and
how it ended. -/
structure Conversation (E : Env) where
  node : Option (Node E)
  effects : List (Effect E)
  ending : Stop

/-- p2p/peer.go:176-341 `readHandler` with the calls of `p.sync.ProcessMessage`. `sync = none` is a nil pointer,
which p2p/sync.go:105 dereferences. `others n` is what the rest of the program does to the node before the call,
`w n` what the call sees of the world. Simplification: a call of `ProcessMessage` is one step for the other
goroutines. -/
def converse {E : Env} (others : Nat → Node E → Node E) (w : Nat → World) (from_ : Sender) :
    Nat → Option (Node E) → Bytes → Conversation E
  | 0, sync, _ => { node := sync, effects := [], ending := .loop .flagged }
  | n + 1, sync, s =>
    match readStep E s with
    | .stop e => { node := sync, effects := [], ending := .loop e }
    | .next none _ rest => converse others w from_ n sync rest
    | .next (some m) _ rest =>
      match sync with
      | none =>
        { node := none, effects := []
          ending := .handler (.panic "invalid memory address or nil pointer dereference") }
      | some node =>
        let r := processMessage (w n) (others n node) from_ m
        match r.ended with
        | .done =>
          let c := converse others w from_ n (some r.node) rest
          { c with effects := r.effects ++ c.effects }
        | e => { node := some r.node, effects := r.effects, ending := .handler e }

end Gringo.P2P
