import Verif.Model.Talk
import Verif.Spec.Talk
import Verif.Spec.Lifecycle
/-
What it means that a node has nothing more to do on a connection.
-/
namespace Gringo.Spec
open Gringo.P2P

variable {E : Env}

/-- A step for which nothing has to come from outside: this process does something, or the connection takes bytes that
are being written. -/
def Works (others : Node E → Node E → Prop) (f : Sender) (s s' : Talk.State E) : Prop :=
  Talk.Step others f .own s s' ∨ (Talk.Step others f .remote s s' ∧ s'.peer.wire ≠ s.peer.wire)

/-- Nothing more happens until bytes come in, the connection breaks or another goroutine makes a call. -/
def AtRest (others : Node E → Node E → Prop) (f : Sender) (s : Talk.State E) : Prop :=
  ∀ s', ¬ Works others f s s'

/-- `AllWritten msgs wire`: `wire` are the frames of `msgs`, one after the other. -/
def AllWritten (msgs : List (Message E)) (wire : Bytes) : Prop :=
  ∃ frames, List.Forall₂ (fun m b => m.frame = .ok b) msgs frames ∧ wire = frames.flatten

end Gringo.Spec
