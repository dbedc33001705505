import Verif.Model.Program
import Verif.Spec.Rest
import Verif.Spec.Place
/-
What it means that the whole program has nothing more to do.
-/
namespace Gringo.Spec
open Gringo.P2P

variable {E : Env}

/-- What was written so far on each connection. -/
def wires (s : Program.State E) : List Bytes := s.pool.conns.map (·.peer.wire)

/-- A step for which nothing has to come from outside: this process does something, or a connection takes bytes that
are being written to it. The loop of the pool finishes its turn, but does not begin another one. -/
def ProgramWorks (remote : Nat → String) (s s' : Program.State E) : Prop :=
  s.dead = false ∧ s.pool.panicked = false ∧ (s.pool.loop = .select → s'.pool.loop = .select) ∧
  (Program.Step remote .own s s' ∨ (Program.Step remote .remote s s' ∧ wires s' ≠ wires s))

/-- Nothing more happens until something comes from outside, the loop of the pool begins another turn or the process
ends. -/
def ProgramAtRest (remote : Nat → String) (s : Program.State E) : Prop := ∀ s', ¬ ProgramWorks remote s s'

/-- The read loop of the connection is in `Ban`: it waits for the end of its own connection, or for that of another
one. -/
def InBan (s : Program.State E) (x : Whole.Conn (Message E)) : Prop :=
  x.peer.reader = .closing .waiting ∨ (s.io x.id).stuck = true

/-- A message that says how far its sender is: a ping, a pong or a block. -/
def Tidings (m : Message E) : Prop := (∃ p, m = .ping p) ∨ (∃ p, m = .pong p) ∨ ∃ b, m = .block b

/-- The read loop of the connection and a goroutine of `Stop` wait for each other: the read loop handles a ping, a pong or a
block, and needs the lock of its address for that; the goroutine of `Stop` has this lock, and has called `Close` on the
connection, p2p/pool.go:306-307, which waits for the end of the read loop, p2p/peer.go:353. -/
def HeldByStop (s : Program.State E) (x : Whole.Conn (Message E)) : Prop :=
  x.peer.reader = .reading ∧ (∃ m, (s.io x.id).task = some m ∧ Tidings m) ∧
  ∃ k, (x.addr, .closing x.id k) ∈ s.pool.closers ∧ x.call k = some (.disconnect .waiting)

/-- The goroutine of `PropagateBlock` has ended. -/
def JobOver (j : Program.Job E) : Prop := j.stage = .known ∨ j.stage = .noPeer ∨ ∃ c, j.stage = .sent c

end Gringo.Spec
