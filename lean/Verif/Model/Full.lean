import Verif.Model.Program
/-
Model of the whole program from the first byte of every connection on: Model/Program.lean with the handshakes of
p2p/peer.go:59-94 and p2p/handshake.go:231-264, and the nonces of p2p/server.go:13-54.

Simplification: the nonce is taken and the hand is serialised in the step that opens the connection. Only the loop of the
pool does this, so that no other goroutine can tell.
-/
namespace Gringo.Full
open Gringo.P2P

variable {E : Env}

/-- A connection that `net.DialTCP` has opened, during and after its handshake: p2p/peer.go:68-77. -/
structure Socket where
  /-- the frame of the hand: p2p/handshake.go:241-253 -/
  hand : Bytes
  /-- how many bytes of it the connection has taken -/
  written : Nat
  /-- all bytes that came in; not in the code -/
  came : Bytes
  /-- the shake that was read: p2p/handshake.go:258-263 -/
  shake : Option Shake

/-- What never changes while the program runs: `conn.RemoteAddr()` of every connection, its text form, and
`chain.Testnet4.Hash()`. -/
structure Setup where
  receiver : Nat → TCPAddr
  addrString : TCPAddr → String
  genesis : Bytes

/-- `conn.RemoteAddr().String()` -/
def Setup.remote (u : Setup) (c : Nat) : String := u.addrString (u.receiver c)

/-- The program. -/
structure State (E : Env) where
  prog : Program.State E
  /-- p2p/server.go:46 `serverNonces` -/
  nonces : NonceList
  /-- by the number of the connection -/
  sockets : Nat → Socket

/-- cmd/node/main.go:20-25 and p2p/server.go:46-54: the program at the start of `Run`; for the addresses see
Model/Program.lean. -/
def State.new (chain : Chain E) (storage : Storage E) (mempool : Option (Transaction E → Out Unit)) (nonces : NonceList) :
    State E where
  prog := .new chain storage mempool
  nonces := nonces
  sockets := fun _ => { hand := [], written := 0, came := [], shake := none }

/-- The loop of the pool is in a handshake: p2p/peer.go:74. -/
def greets : Whole.Loop → Bool
  | .greeting _ _ => true
  | _ => false

/-- p2p/peer.go:88-91; the user agent is not used anywhere -/
def told (sh : Shake) : PoolRun.Told := ⟨sh.version, sh.totalDifficulty, sh.capabilities⟩

/-- p2p/handshake.go:259 on what has come in so far. A result other than an error does not depend on what comes
later. -/
def readShake (E : Env) (came : Bytes) : Out (Shake × UInt64) × Bytes := readMessage MsgTypeShake (Shake.read E) came

/-- The steps, each with whose it is: see Model/Lifecycle.lean. -/
inductive Step (u : Setup) : Lifecycle.Kind → State E → State E → Prop
  /-- the steps of Model/Program.lean, except those for which there is a step below: nothing comes in, and no handshake
  begins or ends -/
  | prog {s : State E} (k : Lifecycle.Kind) (q : Program.State E) (hs : Program.Step u.remote k s.prog q)
      (ha : ∀ c, (q.io c).arrived = (s.prog.io c).arrived)
      (hg : q.pool.loop = s.prog.pool.loop ∨ (greets s.prog.pool.loop = false ∧ greets q.pool.loop = false)) :
      Step u k s { s with prog := q }
  /-- p2p/peer.go:68 and p2p/handshake.go:231-250: the connection is opened, and the hand is made -/
  | opens {s : State E} (addr : String) (nonce : UInt64) (nonces : NonceList) (data : Bytes)
      (h : s.prog.pool.loop = .dialing addr) (hn : s.nonces.next = .ok (nonce, nonces))
      (hd : (ownHand nonce (u.receiver s.prog.pool.next) u.genesis).bytes = .ok data) :
      Step u .remote s { s with
        prog := { s.prog with pool := { s.prog.pool with
          loop := .greeting addr s.prog.pool.next
          opened := s.prog.pool.next :: s.prog.pool.opened
          next := s.prog.pool.next + 1 } }
        nonces := nonces
        sockets := Function.update s.sockets s.prog.pool.next
          { s.sockets s.prog.pool.next with hand := (writeMessage MsgTypeHand data).1 } }
  /-- p2p/handshake.go:244, 253: there is no nonce, or the hand cannot be serialised -/
  | opensDies {s : State E} (addr : String) (h : s.prog.pool.loop = .dialing addr)
      (hn : ∀ nonce nonces data, s.nonces.next = .ok (nonce, nonces) →
        (ownHand nonce (u.receiver s.prog.pool.next) u.genesis).bytes ≠ .ok data) :
      Step u .remote s { s with prog := { s.prog with dead := true } }
  /-- p2p/handshake.go:253: the connection takes some more bytes of the hand -/
  | writes {s : State E} (addr : String) (c n : Nat) (h : s.prog.pool.loop = .greeting addr c)
      (h1 : (s.sockets c).written < n) (h2 : n ≤ (s.sockets c).hand.length) :
      Step u .remote s { s with sockets := Function.update s.sockets c { s.sockets c with written := n } }
  /-- bytes come in on a connection before the shake has been read -/
  | early {s : State E} (c : Nat) (bs : Bytes) (hc : c < s.prog.pool.next) (h : (s.sockets c).shake = none) :
      Step u .remote s { s with
        sockets := Function.update s.sockets c { s.sockets c with came := (s.sockets c).came ++ bs } }
  /-- bytes come in on a connection after the shake has been read -/
  | arrive {s : State E} (c : Nat) (bs : Bytes) (h : (s.sockets c).shake ≠ none) :
      Step u .remote s { s with
        prog := { s.prog with io := Function.update s.prog.io c { s.prog.io c with
          inbox := (s.prog.io c).inbox ++ bs, arrived := (s.prog.io c).arrived ++ bs } }
        sockets := Function.update s.sockets c { s.sockets c with came := (s.sockets c).came ++ bs } }
  /-- p2p/handshake.go:253-261, p2p/peer.go:74-77, p2p/pool.go:227-230: writing or reading fails. The network may let
  them fail at any moment. -/
  | noShake {s : State E} (addr : String) (c : Nat) (h : s.prog.pool.loop = .greeting addr c) :
      Step u .remote s { s with prog := { s.prog with pool := { s.prog.pool with
        loop := .failed, table := s.prog.pool.table.update addr (PoolRun.setStatus .failedConn) } } }
  /-- p2p/handshake.go:259: reading panics -/
  | shakeDies {s : State E} (addr : String) (c : Nat) (h : s.prog.pool.loop = .greeting addr c)
      (hw : (s.sockets c).written = (s.sockets c).hand.length)
      (hr : (∃ e, (readShake E (s.sockets c).came).1 = .panic e) ∨ ∃ e, (readShake E (s.sockets c).came).1 = .fatal e) :
      Step u .own s { s with prog := { s.prog with dead := true } }
  /-- p2p/handshake.go:259-263 and p2p/pool.go:233-235: the shake is read, and has another version -/
  | otherVersion {s : State E} (addr : String) (c : Nat) (sh : Shake) (n : UInt64) (rest : Bytes)
      (h : s.prog.pool.loop = .greeting addr c) (hw : (s.sockets c).written = (s.sockets c).hand.length)
      (hr : readShake E (s.sockets c).came = (.ok (sh, n), rest)) (hv : sh.version ≠ ProtocolVersion) :
      Step u .own s { s with prog := { s.prog with pool := { s.prog.pool with loop := .failed } } }
  /-- p2p/handshake.go:259-263 and p2p/pool.go:233-237: the shake is read; what came after it is left for the read
  handler -/
  | shake {s : State E} (addr : String) (c : Nat) (sh : Shake) (n : UInt64) (rest : Bytes)
      (h : s.prog.pool.loop = .greeting addr c) (hw : (s.sockets c).written = (s.sockets c).hand.length)
      (hr : readShake E (s.sockets c).came = (.ok (sh, n), rest)) (hv : sh.version = ProtocolVersion) :
      Step u .own s { s with
        prog := { s.prog with
          pool := { s.prog.pool with loop := .counting addr c (told sh) s.prog.pool.connected }
          io := Function.update s.prog.io c { s.prog.io c with inbox := rest, arrived := rest } }
        sockets := Function.update s.sockets c { s.sockets c with shake := some sh } }

/-- The states the program can get into, until some goroutine panics or ends the process. -/
inductive Reachable (u : Setup) (chain : Chain E) (storage : Storage E) (mempool : Option (Transaction E → Out Unit))
    (nonces : NonceList) : State E → Prop
  | new : Reachable u chain storage mempool nonces (.new chain storage mempool nonces)
  | next {s s' : State E} {k : Lifecycle.Kind} (h : Reachable u chain storage mempool nonces s)
      (hd : s.prog.dead = false) (hp : s.prog.pool.panicked = false) (hs : Step u k s s') :
      Reachable u chain storage mempool nonces s'

end Gringo.Full
