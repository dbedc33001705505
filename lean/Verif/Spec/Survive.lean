import Verif.Spec.Full
/-
What a peer can do to end the process of the shipped node.
-/
namespace Gringo.Spec
open Gringo.P2P

variable {E : Env}

/-- The only calls from outside of the loop and of the goroutines of the connections are calls of `Add` with an IPv4
address and a port, as they are written: cmd/node/main.go does nothing else. -/
def Adds (s s' : Full.State E) : Prop :=
  ∃ (r : Net.Resolver) (a b c d : UInt8) (port : UInt16), s'.prog.pool = { s.prog.pool with
    table := add (fun t => Net.resolve r t.toList) s.prog.pool.table
      s!"{a.toNat}.{b.toNat}.{c.toNat}.{d.toNat}:{port.toNat}" }

/-- The states the program of cmd/node/main.go can get into: the chain of Testnet1, nothing stored, no pool of
transactions. It ends when some goroutine panics or ends the process. -/
inductive Shipped (u : Full.Setup) (nonces : NonceList) : Full.State E → Prop
  | new : Shipped u nonces (.new (Chain.new (testnet1 E) (sqlStorage E)) (sqlStorage E) none nonces)
  | next {s s' : Full.State E} {k : Lifecycle.Kind} (h : Shipped u nonces s) (hd : s.prog.dead = false)
      (hp : s.prog.pool.panicked = false) (hs : Full.Step u k s s') (hc : k = .call → Adds s s') : Shipped u nonces s'

/-- Some goroutine has panicked, or has ended the process. -/
def HasEnded (s : Full.State E) : Prop :=
  s.prog.dead = true ∨ s.prog.pool.panicked = true ∨ ∃ x ∈ s.prog.pool.conns, x.peer.panicked = true

/-- The messages for which the shipped node wants to ban their sender, and transactions. -/
def Unwelcome (E : Env) : Message E → Prop
  | .block b => ∃ e, ((Chain.new (testnet1 E) (sqlStorage E)).processBlock (sqlStorage E) b).1 = .err e
  | .headers hs => ∃ e, Chain.processHeaders E hs.headers = .err e
  | .transaction _ => True
  | _ => False

/-- A shake that the node accepts, and the length that its frame announces. -/
def GoodShake (sh : Shake) (len : Nat) : Prop :=
  sh.version = 1 ∧ sh.genesis.length = 32 ∧ sh.userAgent.length < 2 ^ 64 ∧ (shakeBody sh).length ≤ len ∧ len ≤ 20000000

/-- What a peer may say to end the process. -/
inductive Trouble (E : Env) : Bytes → Prop
  /-- a shake that announces a name of the program too long for the memory -/
  | shake (len : Nat) (caps : UInt32) (td name : UInt64) (rest : Bytes) (h1 : 24 ≤ len) (h2 : len ≤ 20000000)
      (h : E.maxAlloc < name.toNat) :
      Trouble E ([0x54, 0x34, 2] ++ be 8 len ++ be 4 1 ++ be 4 caps.toNat ++ be 8 td.toNat ++ be 8 name.toNat ++ rest)
  /-- after a shake and any frames, a compact block whose decoding panics (see C27) -/
  | compact (sh : Shake) (len : Nat) (hs : GoodShake sh len) (fs : List (GoodFrame E)) (body rest : Bytes)
      (hl : body.length ≤ 20000000) (h : ¬ (CompactBlock.read E body).1.Safe) :
      Trouble E ([0x54, 0x34, 2] ++ be 8 len ++ shakeBody sh ++ streamOf fs ++ frameBytes 13 body ++ rest)
  /-- after a shake, among other frames, an unwelcome message -/
  | message (sh : Shake) (len : Nat) (hs : GoodShake sh len) (fs : List (GoodFrame E)) (rest : Bytes) (m : Message E)
      (h : m ∈ messagesOf fs) (hm : Unwelcome E m) : Trouble E ([0x54, 0x34, 2] ++ be 8 len ++ shakeBody sh ++ streamOf fs ++ rest)

end Gringo.Spec
