import Verif.Go.Basic
/-
Vocabulary for statements about decoders. None of it mentions the modelled code.
-/
namespace Gringo

/-- The decoder `rd` turns the bytes `b` into `a`, consumes exactly `b` and leaves whatever follows. -/
def Reads {α : Type} (rd : Rd α) (b : Bytes) (a : α) : Prop :=
  ∀ rest : Bytes, rd (b ++ rest) = (.ok a, rest)

/-- A decoder's success depends only on the bytes it consumed: if it succeeds on a stream, it has taken a
prefix of it, and it does the same whatever follows that prefix. -/
def Proper {α : Type} (rd : Rd α) : Prop :=
  ∀ s a r, rd s = (.ok a, r) → ∃ b, s = b ++ r ∧ Reads rd b a

/-- The decoder never panics and never terminates the process, on any stream. -/
def NeverCrashes {α : Type} (rd : Rd α) : Prop := ∀ s, (rd s).1.Safe

/-- The decoder only takes bytes off the front of the stream, also when it fails. -/
def TakesPrefix {α : Type} (rd : Rd α) : Prop := ∀ s, (rd s).2 <:+ s

end Gringo
