import Verif.Spec.Full
/-
What it means that two peers are answered alike.
-/
namespace Gringo.Spec
open Gringo.P2P

variable {E : Env}

/-- The same answer, or two lists of addresses. -/
def Alike (m m' : Message E) : Prop := m = m' ∨ ∃ p p', m = .peerAddrs p ∧ m' = .peerAddrs p'

/-- As far as both lists go. -/
def Agree (l l' : List (Message E)) : Prop := List.Forall₂ Alike (l.take l'.length) (l'.take l.length)

/-- The messages sent to a peer are, in this order, the answers `replies`, and in between messages that were sent without
being asked for: the two of the beginning, and blocks that were passed on. -/
def Answers (u : Full.Setup) (s : Full.State E) (x : Whole.Conn (Message E)) (replies : List (Message E)) : Prop :=
  replies.Sublist x.peer.accepted ∧
  ∃ unasked, (unasked ++ replies).Perm x.peer.accepted ∧
    ∀ m ∈ unasked, isHello m = true ∨ ∃ b, m = .block b ∧ CameIn u.remote s.prog b

/-- The messages that say something about the chain of the node, other than blocks. -/
def isTelling : Message E → Bool
  | .pong _ | .headers _ => true
  | _ => false

end Gringo.Spec
