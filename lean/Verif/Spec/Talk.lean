import Mathlib.Data.List.Forall2
import Verif.Spec.Session
import Verif.Spec.Frames
import Verif.Model.Send
/-
What the other side of a connection should get to see.
-/
namespace Gringo.Spec
open Gringo.P2P

/-- The answers among the effects of handling messages, as messages. -/
def answersOf {E : Env} : List (Effect E) → List (Message E)
  | [] => []
  | .reply (.pong m) :: es => .pong m :: answersOf es
  | .reply (.peerAddrs m) :: es => .peerAddrs m :: answersOf es
  | .reply (.headers m) :: es => .headers m :: answersOf es
  | .reply (.block b) :: es => .block b :: answersOf es
  | .relay _ _ _ :: es => answersOf es

/-- `WrittenTo msgs wire`: `wire` are the frames of `msgs`, one after the other; of the last message there may be only
a part, or nothing. -/
def WrittenTo {E : Env} (msgs : List (Message E)) (wire : Bytes) : Prop :=
  ∃ (done last : List (Message E)) (frames : List Bytes) (p : Bytes),
    msgs = done ++ last ∧ last.length ≤ 1 ∧ List.Forall₂ (fun m b => m.frame = .ok b) done frames ∧
    wire = frames.flatten ++ p ∧ (p = [] ∨ ∃ m b, last = [m] ∧ m.frame = .ok b ∧ p <+: b)

end Gringo.Spec
