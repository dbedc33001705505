import Verif.Model.PoolRun
/-
What is asked of the order in which addresses are dialled: C140.
-/
namespace Gringo.Dial
open Gringo.P2P Gringo.PoolRun

/-- The address was never tried, or its connection has ended. -/
def Waiting (i : PeerInfo) : Prop := i.status = .new ∨ i.status = .disconnected

instance (i : PeerInfo) : Decidable (Waiting i) := by unfold Waiting; infer_instance

/-- How many addresses of the table were never tried, or lost their connection. -/
def waiting (t : Table) : Nat := t.countP fun e => decide (Waiting e.2)

/-- Which address is dialled in the step from `s` to `s'`. -/
def dialled (s s' : Pool) : List String :=
  match s.loop, s'.loop with
  | .connecting _, .dialing a => [a]
  | _, _ => []

/-- 1 if in the step from `s` to `s'` an attempt ends that leaves its address as if it had not been tried. -/
def undone (s s' : Pool) : Nat :=
  match s.loop, s'.loop with
  | .greeting a _, .failed => ((s'.table.find a).toList.countP fun i => decide (Waiting i))
  | _, _ => 0

/-- `Run P s ds c u s'`: the pool comes from `s` to `s'` through states that all satisfy `P`. On the way it dials the
addresses `ds`, in this order; `c` times an address comes to be waiting, because it is added or loses its connection;
`u` attempts leave their address as if it had not been tried. -/
inductive Run (P : Pool → Prop) (s : Pool) : List String → Nat → Nat → Pool → Prop
  | here (h : P s) : Run P s [] 0 0 s
  | next {ds : List String} {c u : Nat} {s' s'' : Pool} (h : Run P s ds c u s') (hp : s'.panicked = false)
      (hs : Step s' s'') (hP : P s'') :
      Run P s (ds ++ dialled s' s'') (c + (waiting s''.table - waiting s'.table)) (u + undone s' s'') s''

/-- `b` is known, and was never tried. -/
def New (b : String) (s : Pool) : Prop := ∃ i, s.table.find b = some i ∧ i.status = .new

/-- The last attempt to connect to `b` failed. -/
def Failed (b : String) (s : Pool) : Prop := ∃ i, s.table.find b = some i ∧ i.status = .failedConn

/-- An attempt to connect to `b` is being made. -/
def Trying (b : String) (s : Pool) : Prop := s.loop = .dialing b ∨ ∃ c, s.loop = .greeting b c

end Gringo.Dial
