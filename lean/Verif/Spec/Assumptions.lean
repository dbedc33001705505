import Verif.Model.Env
import Verif.Spec.Codec
/-
What the theorems assume about code outside the repository. Each structure is a hypothesis of the theorems
that need it; Verif/Spec/Toy.lean gives an environment that satisfies them all.
-/
namespace Gringo

/-- The point codec of the bulletproofs library, on a set `P` of points: encodings have 33 bytes and are
read back; decoding yields points of the set, depends only on the bytes consumed and never panics. -/
structure PointCodec (E : Env) (P : Point → Prop) : Prop where
  reads : ∀ p, P p → Reads E.pointRead (E.pointBytes p) p
  length : ∀ p, P p → (E.pointBytes p).length = 33
  sound : ∀ s p r, E.pointRead s = (.ok p, r) → P p
  proper : Proper E.pointRead
  safe : NeverCrashes E.pointRead
  takes : TakesPrefix E.pointRead

/-- The range proof codec, on a set `Q` of proofs: an encoding, handed over through a reader that ends with
it, is read back completely; decoding never panics. -/
structure PrfCodec (E : Env) (Q : E.Prf → Prop) : Prop where
  reads : ∀ x, Q x → E.prfRead (E.prfBytes x) = (.ok x, [])
  safe : NeverCrashes E.prfRead
  takes : TakesPrefix E.prfRead

/-- `sort.Sort` by a byte-string key returns a sorted permutation. -/
structure SortOK (E : Env) : Prop where
  perm : ∀ {α : Type} (key : α → Bytes) (l : List α),
    (E.sortBy (fun a b => bytesLt (key a) (key b)) l).Perm l
  sorted : ∀ {α : Type} (key : α → Bytes) (l : List α),
    isSorted (fun a b => bytesLt (key a) (key b)) (E.sortBy (fun a b => bytesLt (key a) (key b)) l) = true

/-- `blake2b.Sum256` returns 32 bytes. -/
structure HashLen (E : Env) : Prop where
  length : ∀ b, (E.blake2b b).length = 32

end Gringo
