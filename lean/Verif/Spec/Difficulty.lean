import Verif.Model.Block
/-
Difficulty adjustment in plain arithmetic.
-/
namespace Gringo.Spec

/-- Sum of the difficulties of the 60 blocks at the front of the list. -/
def frontSum (bl : List BlockHeader) : Nat := ((bl.take 60).map (·.difficulty.toNat)).sum

/-- Average difficulty of these 60 blocks, rounded down. -/
def frontAverage (bl : List BlockHeader) : Nat := frontSum bl / 60

end Gringo.Spec
