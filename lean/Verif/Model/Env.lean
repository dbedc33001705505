import Verif.Go.Basic
import Verif.Go.Time
/-
Code outside the repository, as parameters of the model. What a theorem assumes about a parameter is a
separate `Prop` structure (see `Verif/Spec/Assumptions.lean`).
-/
namespace Gringo

/-- `bulletproofs.Point`: affine coordinates, `X, Y *big.Int` (non-negative in all uses). The pointer
fields are never nil after `Read`. -/
structure Point where
  X : Nat
  Y : Nat
deriving Repr, DecidableEq

/-- Everything the repository calls but does not define. -/
structure Env where
  /-- the largest request `make` grants, in bytes -/
  maxAlloc : Nat
  /-- `unsafe.Sizeof(consensus.Output{})`; contains the external `BulletProof` struct -/
  outputSize : Nat
  /-- `blake2b.Sum256` -/
  blake2b : Bytes → Bytes
  /-- `sha256.Sum256` -/
  sha256 : Bytes → Bytes
  /-- `siphash.Hash(k0, k1, p)` of github.com/dchest/siphash -/
  siphash : UInt64 → UInt64 → Bytes → UInt64
  /-- `(*bulletproofs.Point).Bytes` -/
  pointBytes : Point → Bytes
  /-- `(*bulletproofs.Point).Read` -/
  pointRead : Rd Point
  /-- `bulletproofs.BulletProof` -/
  Prf : Type
  /-- `(*bulletproofs.BulletProof).Bytes` -/
  prfBytes : Prf → Bytes
  /-- `(*bulletproofs.BulletProof).Read` -/
  prfRead : Rd Prf
  /-- `bulletproofs.NewProver(64).Verify(commit, proof)` -/
  rangeVerify : Point → Prf → Bool
  /-- `bulletproofs.ScalarMulPoint` -/
  smul : Point → Nat → Point
  /-- `bulletproofs.SumPoints` -/
  padd : Point → Point → Point
  /-- `bulletproofs.Sum` on scalars -/
  ssum : Nat → Nat → Nat
  /-- `bulletproofs.Mul` on scalars -/
  smulS : Nat → Nat → Nat
  /-- `bulletproofs.GetB32` -/
  getB32 : Nat → Bytes
  /-- `bulletproofs.ModSqrtFast` -/
  modSqrt : Nat → Nat
  /-- `time.Now().UTC()` at the moment of the call -/
  now : Time
  /-- `sort.Sort` for a list with the given `Less` -/
  sortBy : {α : Type} → (α → α → Bool) → List α → List α

end Gringo
