import Verif.Model.Block
import Verif.Props.Pow
/-
Which values are "well-formed": the conditions under which a round trip can be expected at all. The data
types of the model are used, none of its functions.
-/
namespace Gringo.Spec
open Gringo.Props

/-- A header whose hashes and kernel offset have 32 bytes, whose time stamp is a whole number of seconds
in the `int64` range, and whose proof has 42 nonces of at most `EdgeBits` bits. -/
structure WellFormedHeader (h : BlockHeader) : Prop where
  previous : h.previous.length = 32
  previousRoot : h.previousRoot.length = 32
  utxoRoot : h.utxoRoot.length = 32
  rangeProofRoot : h.rangeProofRoot.length = 32
  kernelRoot : h.kernelRoot.length = 32
  totalKernelOffset : h.totalKernelOffset.length = 32
  wholeSecond : h.timestamp.nsec = 0
  timeLow : -(2 ^ 63) ≤ h.timestamp.sec
  timeHigh : h.timestamp.sec < 2 ^ 63
  pow : Packable h.pow

/-- What the wire carries of a header: all but `Difficulty` and `TotalKernelSum`. -/
def onWire (h : BlockHeader) : BlockHeader := { h with difficulty := 0, totalKernelSum := [] }

/-- Inputs have 33-byte commitments. -/
def InputsOK (l : List Input) : Prop := ∀ i ∈ l, i.commit.length = 33

/-- Outputs have a representable commitment and a representable range proof of at most 5134 bytes. -/
def OutputsOK {E : Env} (P : Point → Prop) (Q : E.Prf → Prop) (l : List (Output E)) : Prop :=
  ∀ o ∈ l, P o.commit ∧ Q o.proof ∧ (E.prfBytes o.proof).length ≤ 5134

/-- Kernels have a representable excess and a 64-byte signature. -/
def KernelsOK (P : Point → Prop) (l : List TxKernel) : Prop :=
  ∀ k ∈ l, P k.excess ∧ k.excessSig.length = 64

/-- The hashes the lists are ordered by: of the feature byte and the commitment, and of the whole kernel. -/
def inputKey (E : Env) (i : Input) : Bytes := E.blake2b (i.features :: i.commit)
@[inherit_doc inputKey] def outputKey {E : Env} (o : Output E) : Bytes :=
  E.blake2b (o.features :: E.pointBytes o.commit)
@[inherit_doc inputKey] def kernelKey (E : Env) (k : TxKernel) : Bytes :=
  E.blake2b (k.features :: (be64 k.fee ++ be64 k.lockHeight ++ E.pointBytes k.excess ++ k.excessSig))

/-- `l'` is `l` in non-decreasing order of the key. -/
def SortedVersion {α : Type} (key : α → Bytes) (l l' : List α) : Prop :=
  l'.Perm l ∧ l'.Pairwise (fun a b => ¬ bytesLt (key b) (key a))

end Gringo.Spec
