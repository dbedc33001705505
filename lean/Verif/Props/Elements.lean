import Verif.Model.Block
import Verif.Proofs.Codec
import Verif.Spec.Assumptions
/-
C28: kernels, inputs and outputs.
-/
namespace Gringo.Props

/-- **C28, inputs.** An input with a 33-byte commitment takes 34 bytes and is read back. -/
theorem C28_input (i : Input) (h : i.commit.length = 33) :
    i.bytes.length = 34 ∧ Reads Input.read i.bytes i := by
  refine ⟨by simp [Input.bytes, h], ?_⟩
  intro r
  simp [Input.bytes, Input.read, Rd.readFull_append (n := Secp.PedersenCommitmentSize) h r]

/-- **C28, kernels.** A kernel (whose signature is a 64-byte array) takes 114 bytes and is read back. -/
theorem C28_kernel (E : Env) (P : Point → Prop) (hE : PointCodec E P) (k : TxKernel)
    (hx : P k.excess) (hs : k.excessSig.length = 64) :
    (k.bytes E).length = 114 ∧ Reads (TxKernel.read E) (k.bytes E) k := by
  refine ⟨by simp [TxKernel.bytes, hs, hE.length _ hx], ?_⟩
  intro r
  simp [TxKernel.bytes, TxKernel.read, hE.reads _ hx _, Rd.readFull_append hs r]

/-- **C28, outputs.** An output whose range proof takes at most 5134 bytes is read back. -/
theorem C28_output (E : Env) (P : Point → Prop) (Q : E.Prf → Prop) (hE : PointCodec E P)
    (hQ : PrfCodec E Q) (o : Output E) (hx : P o.commit) (hq : Q o.proof)
    (hlen : (E.prfBytes o.proof).length ≤ 5134) :
    o.bytes.length = 42 + (E.prfBytes o.proof).length ∧ Reads (Output.read E) o.bytes o := by
  refine ⟨by simp [Output.bytes, Output.bytesWithoutProof, hE.length _ hx]; omega, ?_⟩
  intro r
  have h64 : (UInt64.ofNat (E.prfBytes o.proof).length).toNat = (E.prfBytes o.proof).length := by
    rw [UInt64.toNat_ofNat']; apply Nat.mod_eq_of_lt; omega
  have hle : ¬ UInt64.ofNat (E.prfBytes o.proof).length > UInt64.ofNat Secp.MaxProofSize := by
    intro h
    have := UInt64.lt_iff_toNat_lt.1 h
    rw [h64] at this
    simp [Secp.MaxProofSize] at this
    omega
  have hp : Output.readProof E (E.prfBytes o.proof).length (E.prfBytes o.proof ++ r) =
      (.ok o.proof, r) := by
    unfold Output.readProof
    rw [Rd.limit_append (hQ.reads _ hq) r]
  simp only [Output.bytes, Output.bytesWithoutProof, Output.read, List.cons_append, List.append_assoc,
    Rd.bind_run, Rd.u8_cons, Rd.cont_ok, hE.reads _ hx _, Rd.u64_be64]
  rw [if_neg hle]
  simp only [Rd.bind_run, h64, hp, Rd.cont_ok, Rd.pure_run]

/-- **C28, oversized proofs.** An output that announces more than 5134 bytes of range proof is rejected,
and not a single byte of the announced proof is read. -/
theorem C28_output_too_long (E : Env) (P : Point → Prop) (hE : PointCodec E P) (f : UInt8) (c : Point)
    (hc : P c) (n : UInt64) (hn : 5134 < n.toNat) (rest : Bytes) :
    ∃ e, Output.read E (f :: (E.pointBytes c ++ be64 n ++ rest)) = (.err e, rest) := by
  have hgt : n > UInt64.ofNat Secp.MaxProofSize := by
    apply UInt64.lt_iff_toNat_lt.2
    simp [Secp.MaxProofSize]; omega
  simp only [Output.read, List.append_assoc, Rd.bind_run, Rd.u8_cons, Rd.cont_ok,
    hE.reads _ hc _, Rd.u64_be64]
  rw [if_pos hgt]
  exact ⟨_, rfl⟩

end Gringo.Props
