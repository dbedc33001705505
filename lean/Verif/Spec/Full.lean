import Verif.Model.Full
import Verif.Spec.Program
import Verif.Spec.ProgramRest
/-
What a peer gets to see of a node from the first byte on, and what the node says about a peer.
-/
namespace Gringo.Spec
open Gringo.P2P

variable {E : Env}

/-- All bytes that were written on a connection: those of the hand, and what its write handler has written. -/
def sentOn (s : Full.State E) (c : Nat) : Bytes :=
  (s.sockets c).hand.take (s.sockets c).written ++
    (s.prog.pool.conns.filter (·.id == c)).flatMap (·.peer.wire)

/-- All bytes that came in on a connection. -/
def cameOn (s : Full.State E) (c : Nat) : Bytes := (s.sockets c).came

/-- The bytes of a shake: version, capabilities, total difficulty, the name of the program with its length before it, and a
genesis hash. -/
def shakeBody (sh : Shake) : Bytes :=
  be 4 sh.version.toNat ++ be 4 sh.capabilities.toNat ++ be 8 sh.totalDifficulty.toNat ++ be 8 sh.userAgent.length ++
    sh.userAgent ++ sh.genesis

/-- The first bytes that came in on the connection `c` are a frame with this shake. -/
def ShookWith (s : Full.State E) (c : Nat) (sh : Shake) : Prop :=
  sh.version = 1 ∧ ∃ len, len ≤ 20000000 ∧ ([0x54, 0x34, 2] ++ be 8 len ++ shakeBody sh) <+: cameOn s c

/-- The frames of the connection `c` after its shake begin with frames that carry the message. -/
def Brought (s : Full.State E) (c : Nat) (m : Message E) : Prop :=
  ∃ (sh : Shake) (len : Nat) (fs : List (GoodFrame E)), len ≤ 20000000 ∧
    ([0x54, 0x34, 2] ++ be 8 len ++ shakeBody sh ++ streamOf fs) <+: cameOn s c ∧ m ∈ messagesOf fs

/-- Somebody on a connection to the address has said that its chain has this total difficulty and height: in its shake,
which does not tell a height, or in a message. -/
def Said (s : Full.State E) (addr : String) (td height : UInt64) : Prop :=
  ∃ x ∈ s.prog.pool.conns, x.addr = addr ∧
    ((∃ sh, ShookWith s x.id sh ∧ td = sh.totalDifficulty ∧ height = 0) ∨
      ∃ m, Brought s x.id m ∧ Tells m td height)

/-- A step for which nothing has to come from outside: this process does something, or a connection takes bytes that are
being written to it. The loop of the pool finishes its turn, but does not begin another one. -/
def FullWorks (u : Full.Setup) (s s' : Full.State E) : Prop :=
  s.prog.dead = false ∧ s.prog.pool.panicked = false ∧ (s.prog.pool.loop = .select → s'.prog.pool.loop = .select) ∧
  (Full.Step u .own s s' ∨ (Full.Step u .remote s s' ∧ ∃ c, sentOn s' c ≠ sentOn s c))

/-- Nothing more happens until something comes from outside, the loop of the pool begins another turn or the process
ends. -/
def FullAtRest (u : Full.Setup) (s : Full.State E) : Prop := ∀ s', ¬ FullWorks u s s'

end Gringo.Spec
