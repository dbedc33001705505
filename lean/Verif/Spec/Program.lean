import Verif.Model.Program
import Verif.Spec.Frames
/-
Where the messages come from that a node sends without being asked.
-/
namespace Gringo.Spec
open Gringo.P2P

variable {E : Env}

/-- A ping or a request for addresses. -/
def isHello : Message E → Bool
  | .ping _ | .getPeerAddrs _ => true
  | _ => false

/-- The blocks among the messages, in order. -/
def blocksOf (ms : List (Message E)) : List (Block E) :=
  ms.filterMap fun
    | .block b => some b
    | _ => none

/-- `CameIn remote s b`: the block came in on some connection of the node and has the height of the node's chain; the
node accepted it, unless the remote address of that connection is not the address that was dialled. -/
def CameIn (remote : Nat → String) (s : Program.State E) (b : Block E) : Prop :=
  ∃ y ∈ s.pool.conns, ∃ fs : List (GoodFrame E), streamOf fs <+: (s.io y.id).arrived ∧ .block b ∈ messagesOf fs ∧
    b.header.height = s.chain.height ∧ ((s.chain.processBlock s.storage b).1 = .ok () ∨ remote y.id ≠ y.addr)

/-- The message says this about the total difficulty and the height of the chain of its sender. -/
def Tells : Message E → UInt64 → UInt64 → Prop
  | .ping m, td, height => td = m.totalDifficulty ∧ height = m.height
  | .pong m, td, height => td = m.totalDifficulty ∧ height = m.height
  | .block b, td, height => td = b.header.totalDifficulty ∧ height = b.header.height
  | _, _, _ => False

end Gringo.Spec
