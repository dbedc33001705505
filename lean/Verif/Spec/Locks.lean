import Verif.Model.Locks
/-
What is asked of locks and shared memory: C136, C137, C138.
-/
namespace Gringo.Locks

/-- What goroutine `t` does next is to read `l`. -/
def Reads (s : State) (t : Nat) (l : Loc) : Prop := ∃ k, s.todo t = .read l :: k

/-- What goroutine `t` does next is to write `l`. -/
def Writes (s : State) (t : Nat) (l : Loc) : Prop := ∃ k, s.todo t = .write l :: k

/-- Two goroutines access `l` at the same time, and one of them writes. -/
def Race (s : State) (l : Loc) : Prop := ∃ t u, t ≠ u ∧ Writes s t l ∧ (Reads s u l ∨ Writes s u l)

/-- Two goroutines write `l` at the same time. -/
def WriteRace (s : State) (l : Loc) : Prop := ∃ t u, t ≠ u ∧ Writes s t l ∧ Writes s u l

/-- Goroutine `t` waits for a lock that `u` has. -/
def WaitsFor (s : State) (t u : Nat) : Prop := ∃ m k, s.todo t = .lock m :: k ∧ s.holder m = some u

end Gringo.Locks
