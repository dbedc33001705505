import Verif.Model.Cuckoo
import Mathlib.Logic.Relation
import Mathlib.Logic.ExistsUnique
/-
Bipartite multigraphs given by a list of edges, and what a simple cycle is. An edge is known by its position
in the list; its `U` end is in one partition and its `V` end in the other.
-/
namespace Gringo.Spec
open Cuckoo

/-- Edges number `i` and `j` exist and end in the same vertex on the `U` side. -/
def SameU (es : List Edge) (i j : Nat) : Prop := ∃ a b, es[i]? = some a ∧ es[j]? = some b ∧ a.U = b.U

/-- The same on the `V` side. -/
def SameV (es : List Edge) (i j : Nat) : Prop := ∃ a b, es[i]? = some a ∧ es[j]? = some b ∧ a.V = b.V

/-- One can walk along edges from edge `i` to edge `j`. -/
def Connected (es : List Edge) (i j : Nat) : Prop :=
  Relation.ReflTransGen (fun x y => SameU es x y ∨ SameV es x y) i j

/-- The edges form one simple cycle: there is at least one, each end of each edge is shared with exactly one
other edge, and the whole is connected. -/
structure IsCycle (es : List Edge) : Prop where
  nonempty : es ≠ []
  twoU : ∀ i < es.length, ∃! j, j ≠ i ∧ SameU es i j
  twoV : ∀ i < es.length, ∃! j, j ≠ i ∧ SameV es i j
  connected : ∀ i < es.length, ∀ j < es.length, Connected es i j

/-- No vertex has three edges. -/
structure NoBranch (es : List Edge) : Prop where
  atU : ∀ i j k, SameU es i j → SameU es i k → i = j ∨ i = k ∨ j = k
  atV : ∀ i j k, SameV es i j → SameV es i k → i = j ∨ i = k ∨ j = k

end Gringo.Spec
