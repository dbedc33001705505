import Verif.Spec.Blocks
import Verif.Spec.Toy
import Verif.Proofs.Block
import Verif.Model.Validate
/-
C12, C13: headers.
-/
namespace Gringo.Props
open Gringo.Spec

/-- **C12.** A well-formed header is serialised to `247 + ceil(42 * EdgeBits / 8)` bytes, and reading
these back, whatever follows, gives the header without `Difficulty` and `TotalKernelSum`. -/
theorem C12_header_roundtrip (E : Env) (hmem : 336 ≤ E.maxAlloc) (h : BlockHeader)
    (wf : WellFormedHeader h) :
    ∃ v, h.bytes = .ok v ∧ v.length = 247 + (42 * h.pow.edgeBits.toNat + 7) / 8 ∧
      Reads (BlockHeader.read E) v (onWire h) := by
  obtain ⟨w, hw, hwl, -, hr⟩ := C10_pow_roundtrip E hmem h.pow wf.pow
  obtain ⟨t1, t2⟩ := h.timestamp.toUnix_range
  have hb : h.bytesWithoutPOW = .ok (be16 h.version ++ be64 h.height ++ beI64 h.timestamp.toUnix ++
      h.previous ++ h.previousRoot ++ h.utxoRoot ++ h.rangeProofRoot ++ h.kernelRoot ++
      h.totalKernelOffset ++ be64 h.outputMmrSize ++ be64 h.kernelMmrSize ++ be64 h.totalDifficulty ++
      be32 h.scalingDifficulty ++ be64 h.nonce) := by
    simp [BlockHeader.bytesWithoutPOW, BlockHashSize, wf.previous, wf.previousRoot, wf.utxoRoot,
      wf.rangeProofRoot, wf.kernelRoot]
  refine ⟨_, by rw [BlockHeader.bytes, hb, Out.bind_ok, hw, Out.bind_ok]; rfl, ?_, ?_⟩
  · simp [beI64_length, wf.previous, wf.previousRoot, wf.utxoRoot,
      wf.rangeProofRoot, wf.kernelRoot, wf.totalKernelOffset, hwl]
    omega
  · intro r
    simp only [BlockHeader.read, List.append_assoc, Rd.bind_run, Rd.u16_be16, Rd.cont_ok, Rd.u64_be64,
      Rd.i64_beI64 t1 t2, Rd.readFull_append (n := BlockHashSize) wf.previous,
      Rd.readFull_append (n := BlockHashSize) wf.previousRoot,
      Rd.readFull_append (n := BlockHashSize) wf.utxoRoot,
      Rd.readFull_append (n := BlockHashSize) wf.rangeProofRoot,
      Rd.readFull_append (n := BlockHashSize) wf.kernelRoot,
      Rd.readFull_append (n := Secp.SecretKeySize) wf.totalKernelOffset, Rd.u32_be32, hr r, Rd.pure_run,
      Time.unix_toUnix wf.wholeSecond wf.timeLow wf.timeHigh]
    rfl

/-- **C12**, the other direction: a header is refused, by terminating the process, exactly when one of its five
hashes does not have 32 bytes. -/
theorem C12_header_refused_iff (h : BlockHeader) :
    (∃ e, h.bytes = .fatal e) ↔ ¬ (h.previous.length = 32 ∧ h.previousRoot.length = 32 ∧ h.utxoRoot.length = 32 ∧
      h.rangeProofRoot.length = 32 ∧ h.kernelRoot.length = 32) := by
  have hpow : ∀ e, h.pow.bytes ≠ .fatal e := by
    intro e
    unfold Proof.bytes
    have := Proof.proofBytes_not_fatal h.pow
    cases hp : h.pow.proofBytes with
    | ok v => simp
    | err e => simp
    | panic e => simp
    | fatal e' => exact absurd hp (this e')
  unfold BlockHeader.bytes BlockHeader.bytesWithoutPOW BlockHashSize
  constructor
  · rintro ⟨e, he⟩ ⟨h1, h2, h3, h4, h5⟩
    simp only [h1, h2, h3, h4, h5] at he
    simp only [ne_eq, not_true_eq_false, or_self, if_false, Out.bind_ok] at he
    cases hp : h.pow.bytes with
    | ok v => rw [hp] at he; simp at he
    | err e => rw [hp] at he; simp at he
    | panic e => rw [hp] at he; simp at he
    | fatal e' => exact hpow _ hp
  · intro hn
    split
    · exact ⟨_, rfl⟩
    · split
      · exact ⟨_, rfl⟩
      · split
        · exact ⟨_, rfl⟩
        · rename_i h1 h2 h3
          exact absurd (by omega) hn

/-- A header as it occurs on the network. -/
def sampleHeader : BlockHeader where
  version := 1
  height := 42
  previous := List.replicate 32 1
  previousRoot := List.replicate 32 2
  timestamp := ⟨1545000000 + 62135596800, 0⟩
  utxoRoot := List.replicate 32 3
  rangeProofRoot := List.replicate 32 4
  kernelRoot := List.replicate 32 5
  nonce := 77
  totalKernelOffset := List.replicate 32 6
  totalKernelSum := [9, 9]
  outputMmrSize := 11
  kernelMmrSize := 12
  pow := { edgeBits := 29, nonces := (List.range 42).map fun i => UInt32.ofNat (i * 12345678) }
  difficulty := 17
  totalDifficulty := 1856000000
  scalingDifficulty := 1856

theorem sampleHeader_wf : WellFormedHeader sampleHeader where
  previous := by simp [sampleHeader]
  previousRoot := by simp [sampleHeader]
  utxoRoot := by simp [sampleHeader]
  rangeProofRoot := by simp [sampleHeader]
  kernelRoot := by simp [sampleHeader]
  totalKernelOffset := by simp [sampleHeader]
  wholeSecond := rfl
  timeLow := by norm_num [sampleHeader]
  timeHigh := by norm_num [sampleHeader]
  pow := by
    refine ⟨by decide, by decide, by simp [sampleHeader], ?_⟩
    decide +kernel

/-- The hypotheses of C12 can be met. -/
example : ∃ v, sampleHeader.bytes = .ok v ∧ Reads (BlockHeader.read Toy.env) v (onWire sampleHeader) := by
  obtain ⟨v, h1, -, h2⟩ := C12_header_roundtrip Toy.env (by norm_num) sampleHeader sampleHeader_wf
  exact ⟨v, h1, h2⟩

/-- A header whose previous hash is one byte short is refused. -/
example : ∃ e, ({ sampleHeader with previous := List.replicate 31 1 } : BlockHeader).bytes = .fatal e :=
  (C12_header_refused_iff _).2 (by simp)

/-- **C13, first half.** What a header looks like that was decoded from any byte stream whatsoever: its
hashes and offset have the right size, the proof has 42 nonces and `1 ≤ EdgeBits ≤ 64`, and the fields that
are not transmitted are zero. (`EdgeBits` above 32 is accepted although nonces are 32-bit.) -/
theorem C13_decoded_shape (E : Env) (s r : Bytes) (h : BlockHeader)
    (hr : BlockHeader.read E s = (.ok h, r)) : WellFormedHeader h ∧ onWire h = h := by
  simp only [BlockHeader.read, Rd.bind_run] at hr
  obtain ⟨x1, r1, h1, hr⟩ := cont_eq_ok hr
  simp only [Rd.bind_run] at hr
  obtain ⟨x2, r2, h2, hr⟩ := cont_eq_ok hr
  simp only [Rd.bind_run] at hr
  obtain ⟨x3, r3, h3, hr⟩ := cont_eq_ok hr
  simp only [Rd.bind_run] at hr
  obtain ⟨x4, r4, h4, hr⟩ := cont_eq_ok hr
  simp only [Rd.bind_run] at hr
  obtain ⟨x5, r5, h5, hr⟩ := cont_eq_ok hr
  simp only [Rd.bind_run] at hr
  obtain ⟨x6, r6, h6, hr⟩ := cont_eq_ok hr
  simp only [Rd.bind_run] at hr
  obtain ⟨x7, r7, h7, hr⟩ := cont_eq_ok hr
  simp only [Rd.bind_run] at hr
  obtain ⟨x8, r8, h8, hr⟩ := cont_eq_ok hr
  simp only [Rd.bind_run] at hr
  obtain ⟨x9, r9, h9, hr⟩ := cont_eq_ok hr
  simp only [Rd.bind_run] at hr
  obtain ⟨x10, r10, h10, hr⟩ := cont_eq_ok hr
  simp only [Rd.bind_run] at hr
  obtain ⟨x11, r11, h11, hr⟩ := cont_eq_ok hr
  simp only [Rd.bind_run] at hr
  obtain ⟨x12, r12, h12, hr⟩ := cont_eq_ok hr
  simp only [Rd.bind_run] at hr
  obtain ⟨x13, r13, h13, hr⟩ := cont_eq_ok hr
  simp only [Rd.bind_run] at hr
  obtain ⟨x14, r14, h14, hr⟩ := cont_eq_ok hr
  simp only [Rd.bind_run] at hr
  obtain ⟨x15, r15, h15, hr⟩ := cont_eq_ok hr
  simp only [Rd.pure_run, Prod.mk.injEq, Out.ok.injEq] at hr
  obtain ⟨rfl, -⟩ := hr
  obtain ⟨v, -, p1, p2, p3, p4⟩ := Proof.read_ok h15
  refine ⟨{
    previous := (Rd.readFull_ok h4).2
    previousRoot := (Rd.readFull_ok h5).2
    utxoRoot := (Rd.readFull_ok h6).2
    rangeProofRoot := (Rd.readFull_ok h7).2
    kernelRoot := (Rd.readFull_ok h8).2
    totalKernelOffset := (Rd.readFull_ok h9).2
    wholeSecond := rfl
    timeLow := (wrapI64_range _).1
    timeHigh := (wrapI64_range _).2
    pow := ⟨p1, p2, by rw [p4]; simp, ?_⟩ }, rfl⟩
  intro n hn
  rw [p4] at hn
  obtain ⟨i, -, rfl⟩ := List.mem_map.1 hn
  apply Nat.lt_pow_two_of_testBit
  intro j hj
  rw [Proof.unpackNonce_testBit]
  have : ¬ j < x15.edgeBits.toNat := Nat.not_lt.2 hj
  simp [this]

/-- A well-formed header can be serialised, hashed and validated. -/
theorem wellFormed_safe (E : Env) (h : BlockHeader) (wf : WellFormedHeader h) :
    h.bytes.isOk = true ∧ (h.hash E).isOk = true ∧ (h.validate E).Safe := by
  obtain ⟨w, hw, -⟩ := Proof.proofBytes_ok (p := h.pow) (by rw [wf.pow.2.2.1]; simp [ProofSize])
  have hb : ∃ v, h.bytesWithoutPOW = .ok v := by
    simp [BlockHeader.bytesWithoutPOW, BlockHashSize, wf.previous, wf.previousRoot, wf.utxoRoot,
      wf.rangeProofRoot, wf.kernelRoot]
  obtain ⟨v, hv⟩ := hb
  refine ⟨by simp [BlockHeader.bytes, hv, Proof.bytes, hw, Out.isOk],
    by simp [BlockHeader.hash, hw, Out.isOk], ?_⟩
  unfold BlockHeader.validate Proof.validate
  rw [hv]
  simp only [Out.bind_ok]
  repeat' split
  all_goals trivial

/-- **C13.** A header decoded from any byte stream can be serialised, hashed and validated: none of the
three panics or terminates the process, and the first two return a value. -/
theorem C13_decoded_safe (E : Env) (s r : Bytes) (h : BlockHeader)
    (hr : BlockHeader.read E s = (.ok h, r)) :
    h.bytes.isOk = true ∧ (h.hash E).isOk = true ∧ (h.validate E).Safe :=
  wellFormed_safe E h (C13_decoded_shape E s r h hr).1

/-- Some stream is accepted, so that C13 is not empty. -/
example : ∃ s h, BlockHeader.read Toy.env s = (.ok h, []) := by
  obtain ⟨v, -, -, h2⟩ := C12_header_roundtrip Toy.env (by norm_num) sampleHeader sampleHeader_wf
  exact ⟨v, _, by simpa using h2 []⟩

end Gringo.Props
