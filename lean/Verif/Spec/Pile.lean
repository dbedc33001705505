import Verif.Spec.Program
/-
What waits to be sent on a connection.
-/
namespace Gringo.Spec
open Gringo.P2P

variable {E : Env}

/-- The messages that wait to be sent on the connection: for each of them a goroutine is in `WriteMessage`,
p2p/peer.go:159-165. -/
def waiting (x : Whole.Conn (Message E)) : List (Message E) :=
  x.peer.threads.filterMap fun
    | .send m => some m
    | _ => none

/-- The connection is served: it was not closed, its read loop waits for the next message, and there are no unread
bytes. -/
structure Listens (s : Program.State E) (x : Whole.Conn (Message E)) : Prop where
  open_ : x.peer.flag = false
  reads : x.peer.reader = .reading
  idle : (s.io x.id).task = none
  empty : (s.io x.id).inbox = []
  free : (s.io x.id).stuck = false

end Gringo.Spec
