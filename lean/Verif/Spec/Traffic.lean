import Verif.Spec.Full
/-
How much is sent on a connection.
-/
namespace Gringo.Spec
open Gringo.P2P

variable {E : Env}

/-- The number of bytes a message takes on the wire; a message that cannot be serialised is not sent. -/
def wireLength (m : Message E) : Nat :=
  match m.frame with
  | .ok b => b.length
  | _ => 0

/-- The number of bytes of several messages. -/
def wireLengths (ms : List (Message E)) : Nat := (ms.map wireLength).sum

end Gringo.Spec
