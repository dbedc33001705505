import Verif.Spec.Validity
import Verif.Props.Blocks
import Verif.Vectors.Consensus
/-
C29-C34: validation of headers and blocks.
-/
namespace Gringo.Props
open Gringo.Spec

/-- **C29.** -/
theorem C29_version_schedule (height : UInt64) (version : UInt16) :
    validateBlockVersion height version = true ↔ VersionAt height.toNat version.toNat := by
  have e1 : HardForkV2Height.toNat = 95000 := rfl
  have e2 : HardForkInterval.toNat = 250000 := rfl
  have e3 : (2 * HardForkInterval).toNat = 500000 := rfl
  have v : ∀ n : UInt16, (version == n) = true ↔ version.toNat = n.toNat := by
    intro n; rw [beq_iff_eq, ← UInt16.toNat_inj]
  unfold validateBlockVersion VersionAt
  simp only [UInt64.lt_iff_toNat_lt, e1, e2, e3]
  split
  · rw [v]; simp; omega
  · split
    · rw [v]; simp; omega
    · split
      · rw [v]; simp; omega
      · simp; omega

/-- No version is accepted from height 500000 on. -/
theorem C29_no_version_after (height : UInt64) (version : UInt16) (h : 500000 ≤ height.toNat) :
    validateBlockVersion height version = false := by
  rw [← Bool.not_eq_true, C29_version_schedule]
  unfold VersionAt; omega

theorem sub_gt_iff (t now : Time) :
    t.sub now > maxFuture ↔ ¬ NotTooFarAhead t now := by
  unfold Time.sub Time.nanos maxFuture BlockTimeSec NotTooFarAhead
  omega

theorem bytesWithoutPOW_eq {h : BlockHeader} (wf : WellFormedHeader h) :
    h.bytesWithoutPOW = .ok (powMessage h) := by
  simp [BlockHeader.bytesWithoutPOW, BlockHashSize, wf.previous, wf.previousRoot, wf.utxoRoot,
    wf.rangeProofRoot, wf.kernelRoot, powMessage]

/-- **C30.** -/
theorem C30_header_rule (E : Env) (h : BlockHeader) (wf : WellFormedHeader h) :
    h.validate E = .ok () ↔
      VersionAt h.height.toNat h.version.toNat ∧ NotTooFarAhead h.timestamp E.now ∧
      PowSizeOK h.pow.edgeBits.toNat h.scalingDifficulty.toNat ∧
      (Cuckoo.newCuckaroo E (powMessage h)).verify h.pow.nonces h.pow.edgeBits = true := by
  have e29 : h.pow.edgeBits = SecondPowEdgeBits ↔ h.pow.edgeBits.toNat = 29 := by
    rw [← UInt8.toNat_inj]; rfl
  have e30 : h.pow.edgeBits < DefaultMinEdgeBits ↔ h.pow.edgeBits.toNat < 30 := by
    rw [UInt8.lt_iff_toNat_lt]; rfl
  have e1 : h.scalingDifficulty = 1 ↔ h.scalingDifficulty.toNat = 1 := by
    rw [← UInt32.toNat_inj]; rfl
  have eb : (h.pow.edgeBits != SecondPowEdgeBits) = true ↔ ¬ h.pow.edgeBits.toNat = 29 := by
    rw [bne_iff_ne, ne_eq, e29]
  rw [← C29_version_schedule, show NotTooFarAhead h.timestamp E.now ↔
    ¬ h.timestamp.sub E.now > maxFuture by rw [sub_gt_iff, not_not]]
  unfold BlockHeader.validate Proof.validate PowSizeOK
  rw [bytesWithoutPOW_eq wf]
  simp only [Out.bind_ok, eb, e30, e1, ne_eq]
  by_cases h1 : validateBlockVersion h.height h.version = true
  swap
  · rw [if_pos h1]; simp [h1]
  rw [if_neg (not_not.2 h1)]
  by_cases h2 : h.timestamp.sub E.now > maxFuture
  · rw [if_pos h2]
    exact ⟨fun h => by simp at h, fun h => absurd h2 h.2.1⟩
  rw [if_neg h2]
  by_cases h3 : h.pow.edgeBits.toNat < 30 ∧ ¬ h.pow.edgeBits.toNat = 29
  · rw [if_pos h3]
    have : ¬ (h.pow.edgeBits.toNat = 29 ∨ 30 ≤ h.pow.edgeBits.toNat ∧ h.scalingDifficulty.toNat = 1) := by
      omega
    simp [this]
  rw [if_neg h3]
  by_cases h4 : ¬ h.pow.edgeBits.toNat = 29 ∧ ¬ h.scalingDifficulty.toNat = 1
  · rw [if_pos h4]
    have : ¬ (h.pow.edgeBits.toNat = 29 ∨ 30 ≤ h.pow.edgeBits.toNat ∧ h.scalingDifficulty.toNat = 1) := by
      omega
    simp [this]
  rw [if_neg h4]
  have h5 : h.pow.edgeBits.toNat = 29 ∨ (30 ≤ h.pow.edgeBits.toNat ∧ h.scalingDifficulty.toNat = 1) := by
    omega
  by_cases h6 : (Cuckoo.newCuckaroo E (powMessage h)).verify h.pow.nonces h.pow.edgeBits = true
  · rw [if_pos h6]; exact ⟨fun _ => ⟨h1, h2, h5, h6⟩, fun _ => rfl⟩
  · rw [if_neg h6]; exact ⟨fun h => by simp at h, fun h => absurd h.2.2.2 h6⟩

/-- The header of the real Testnet4 block 65,927 meets the rule. -/
theorem real_header : ∃ h : BlockHeader, WellFormedHeader h ∧ h.validate Concrete.env = .ok () := by
  have h := Vectors.block_vector
  unfold Vectors.block at h
  cases hh : Block.read Concrete.env Vectors.serialisedBlock with
  | mk o r =>
    rw [hh] at h
    cases o with
    | ok b =>
      cases r with
      | nil =>
        simp only [Bool.and_eq_true, beq_iff_eq] at h
        obtain ⟨⟨r1, h1⟩, -⟩ := block_read_ok hh
        refine ⟨b.header, (C13_decoded_shape _ _ _ _ h1).1, ?_⟩
        have hv := h.1
        unfold Block.validate at hv
        cases hh : b.header.validate Concrete.env with
        | ok u => rfl
        | _ => rw [hh] at hv; simp at hv
      | cons _ _ => simp at h
    | _ => simp at h

/-- **C31, the part that holds.** No header with a wire time stamp `ts` more than 720 s after now is
accepted, provided `ts` is below 2^63 - 62135596800. The full property fails above: see `C31_refuted`. -/
theorem C31_future_partial (E : Env) (h : BlockHeader) (wf : WellFormedHeader h) (ts : Int)
    (hts : h.timestamp = Time.unix ts) (hlow : -(2 ^ 63) ≤ ts) (hhigh : ts < 2 ^ 63 - 62135596800)
    (hnow : 0 ≤ E.now.nsec ∧ E.now.nsec < 1000000000)
    (hfuture : (E.now.sec - 62135596800) + 720 < ts) : h.validate E ≠ .ok () := by
  rw [ne_eq, C30_header_rule E h wf]
  rintro ⟨-, h2, -⟩
  have : Time.unix ts = ⟨ts + 62135596800, 0⟩ := by
    unfold Time.unix Time.unixToInternal
    rw [wrapI64_of_range (by omega) (by omega)]
  rw [hts, this] at h2
  unfold NotTooFarAhead at h2
  simp only at h2
  omega

/-- **C31 is false of the code.** For the 62135596800 largest time stamps the wire can carry, which lie
hundreds of billions of years in the future, the time check never fails, whatever the clock shows: the
conversion to `time.Time` wraps around. Acceptance then depends on the other rules only. -/
theorem C31_refuted (E : Env) (h : BlockHeader) (wf : WellFormedHeader h) (ts : Int)
    (hts : h.timestamp = Time.unix ts) (hlow : 2 ^ 63 - 62135596800 ≤ ts) (hhigh : ts < 2 ^ 63)
    (hnow : 0 ≤ E.now.sec) :
    h.validate E = .ok () ↔
      VersionAt h.height.toNat h.version.toNat ∧
      PowSizeOK h.pow.edgeBits.toNat h.scalingDifficulty.toNat ∧
      (Cuckoo.newCuckaroo E (powMessage h)).verify h.pow.nonces h.pow.edgeBits = true := by
  rw [C30_header_rule E h wf]
  have : NotTooFarAhead h.timestamp E.now := by
    rw [hts]
    unfold NotTooFarAhead Time.unix Time.unixToInternal wrapI64
    simp only
    omega
  simp [this]

/-- From any valid header, one accepted with time stamp 2^63 - 1, 292 billion years ahead. The environment
has the same clock and a hash function that maps everything to the given header's hash, so that its solution
is a solution for the new header too (nobody can mine one inside a proof). -/
theorem C31_far_future_accepted (E : Env) (h : BlockHeader) (wf : WellFormedHeader h)
    (hv : h.validate E = .ok ()) (hnow : 0 ≤ E.now.sec) :
    ∃ E' : Env, E'.now = E.now ∧
      ({ h with timestamp := Time.unix (2 ^ 63 - 1) } : BlockHeader).validate E' = .ok () := by
  refine ⟨{ E with blake2b := fun _ => E.blake2b (powMessage h) }, rfl, ?_⟩
  have hrule := (C30_header_rule _ _ wf).1 hv
  have t : (Time.unix (2 ^ 63 - 1)).nsec = 0 ∧ -(2 ^ 63) ≤ (Time.unix (2 ^ 63 - 1)).sec ∧
      (Time.unix (2 ^ 63 - 1)).sec < 2 ^ 63 := by decide
  have wf' : WellFormedHeader { h with timestamp := Time.unix (2 ^ 63 - 1) } :=
    ⟨wf.1, wf.2, wf.3, wf.4, wf.5, wf.6, t.1, t.2.1, t.2.2, wf.pow⟩
  have key := C31_refuted { E with blake2b := fun _ => E.blake2b (powMessage h) } _ wf' (2 ^ 63 - 1) rfl
    (by norm_num) (by norm_num) hnow
  have e : Cuckoo.newCuckaroo { E with blake2b := fun _ => E.blake2b (powMessage h) }
      (powMessage { h with timestamp := Time.unix (2 ^ 63 - 1) }) = Cuckoo.newCuckaroo E (powMessage h) := by
    simp only [Cuckoo.newCuckaroo]
  rw [e] at key
  exact key.2 ⟨hrule.1, hrule.2.2.1, hrule.2.2.2⟩

example : ∃ (E : Env) (h : BlockHeader), h.timestamp = Time.unix (2 ^ 63 - 1) ∧
    E.now.sec = 1543822100 + 62135596800 ∧ h.validate E = .ok () := by
  obtain ⟨b, wf, hb⟩ := real_header
  obtain ⟨E', hn, hv⟩ := C31_far_future_accepted _ _ wf hb (by decide)
  exact ⟨E', _, rfl, by rw [hn], hv⟩

/-- What `Time.unix ts` above means on the wire: the eight bytes after version and height are `ts`. -/
theorem C31_decoded_time (E : Env) (v : UInt16) (ht : UInt64) (ts : Int) (rest r : Bytes) (h : BlockHeader)
    (hlow : -(2 ^ 63) ≤ ts) (hhigh : ts < 2 ^ 63)
    (hr : BlockHeader.read E (be16 v ++ (be64 ht ++ (beI64 ts ++ rest))) = (.ok h, r)) :
    WellFormedHeader h ∧ h.timestamp = Time.unix ts := by
  refine ⟨(C13_decoded_shape E _ _ _ hr).1, ?_⟩
  unfold BlockHeader.read at hr
  simp only [Rd.bind_run, Rd.u16_be16, Rd.u64_be64, Rd.i64_beI64 hlow hhigh, Rd.cont_ok] at hr
  obtain ⟨x1, r1, -, hr⟩ := cont_eq_ok hr
  simp only [Rd.bind_run] at hr
  obtain ⟨x2, r2, -, hr⟩ := cont_eq_ok hr
  simp only [Rd.bind_run] at hr
  obtain ⟨x3, r3, -, hr⟩ := cont_eq_ok hr
  simp only [Rd.bind_run] at hr
  obtain ⟨x4, r4, -, hr⟩ := cont_eq_ok hr
  simp only [Rd.bind_run] at hr
  obtain ⟨x5, r5, -, hr⟩ := cont_eq_ok hr
  simp only [Rd.bind_run] at hr
  obtain ⟨x6, r6, -, hr⟩ := cont_eq_ok hr
  simp only [Rd.bind_run] at hr
  obtain ⟨x7, r7, -, hr⟩ := cont_eq_ok hr
  simp only [Rd.bind_run] at hr
  obtain ⟨x8, r8, -, hr⟩ := cont_eq_ok hr
  simp only [Rd.bind_run] at hr
  obtain ⟨x9, r9, -, hr⟩ := cont_eq_ok hr
  simp only [Rd.bind_run] at hr
  obtain ⟨x10, r10, -, hr⟩ := cont_eq_ok hr
  simp only [Rd.bind_run] at hr
  obtain ⟨x11, r11, -, hr⟩ := cont_eq_ok hr
  simp only [Rd.bind_run] at hr
  obtain ⟨x12, r12, -, hr⟩ := cont_eq_ok hr
  simp only [Rd.pure_run, Prod.mk.injEq, Out.ok.injEq] at hr
  rw [← hr.1]

theorem flag_iff (f : UInt8) : f &&& CoinbaseOutput = CoinbaseOutput ↔ isCoinbase f = true := by
  have h : ∀ n : Fin 256, (UInt8.ofFin n) &&& CoinbaseOutput = CoinbaseOutput ↔
      isCoinbase (UInt8.ofFin n) = true := by decide +kernel
  exact h f.toFin

theorem verifyCoinbaseLoop_ok {E : Env} (l : List (Output E)) : ∀ c,
    Block.verifyCoinbaseLoop c l = .ok () ↔
      (l.filter (fun o => isCoinbase o.features)).length = 0 ∨
        c + (l.filter (fun o => isCoinbase o.features)).length ≤ 1 := by
  induction l with
  | nil => simp [Block.verifyCoinbaseLoop]
  | cons o l ih =>
    intro c
    simp only [Block.verifyCoinbaseLoop, flag_iff, Output.validate]
    have hm : MaxBlockCoinbaseOutputs = 1 := rfl
    by_cases h : isCoinbase o.features = true
    · rw [if_pos h, List.filter_cons, if_pos h, List.length_cons]
      by_cases hc : c + 1 > MaxBlockCoinbaseOutputs
      · rw [if_pos hc]; simp; omega
      · rw [if_neg hc, Out.bind_ok, ih]; omega
    · rw [if_neg h, List.filter_cons, if_neg h, ih]

theorem kernel_validate_iff (E : Env) (k : TxKernel) : k.validate E = .ok () ↔ Signed E k := by
  unfold TxKernel.validate Signed
  show (if Secp.verifySignature E k.excess (Secp.computeMessage k.fee k.lockHeight)
    (Secp.decodeSignature E k.excessSig) then Out.ok () else _) = _ ↔ _
  have : Secp.computeMessage k.fee k.lockHeight =
    List.replicate 16 0 ++ be64 k.fee ++ be64 k.lockHeight := rfl
  rw [this]
  split <;> simp_all

theorem verifyKernelsLoop_ok (E : Env) (l : List TxKernel) : ∀ c,
    Block.verifyKernelsLoop E c l = .ok () ↔
      ((l.filter (fun k => isCoinbase k.features)).length = 0 ∨
        c + (l.filter (fun k => isCoinbase k.features)).length ≤ 1) ∧
      ∀ k ∈ l, isCoinbase k.features = true → Signed E k := by
  induction l with
  | nil => simp [Block.verifyKernelsLoop]
  | cons o l ih =>
    intro c
    have hf : o.features &&& CoinbaseKernel = CoinbaseKernel ↔ isCoinbase o.features = true :=
      flag_iff o.features
    simp only [Block.verifyKernelsLoop, hf]
    have hm : MaxBlockCoinbaseKernels = 1 := rfl
    by_cases h : isCoinbase o.features = true
    · rw [if_pos h, List.filter_cons, if_pos h, List.length_cons]
      by_cases hc : c + 1 > MaxBlockCoinbaseKernels
      · rw [if_pos hc]; simp; omega
      · rw [if_neg hc]
        by_cases hv : o.validate E = .ok ()
        · rw [hv, Out.bind_ok, ih]
          rw [kernel_validate_iff] at hv
          constructor
          · rintro ⟨h1, h2⟩
            refine ⟨by omega, fun k hk hkc => ?_⟩
            rcases List.mem_cons.1 hk with rfl | hk
            · exact hv
            · exact h2 k hk hkc
          · rintro ⟨h1, h2⟩
            exact ⟨by omega, fun k hk => h2 k (List.mem_cons_of_mem _ hk)⟩
        · constructor
          · intro hx
            cases hval : o.validate E with
            | ok u => exact absurd hval hv
            | _ => rw [hval] at hx; simp at hx
          · rintro ⟨-, h2⟩
            exact absurd ((kernel_validate_iff E o).2 (h2 o (List.mem_cons_self ..) h)) hv
    · rw [if_neg h, List.filter_cons, if_neg h, ih]
      constructor
      · rintro ⟨h1, h2⟩
        refine ⟨h1, fun k hk hkc => ?_⟩
        rcases List.mem_cons.1 hk with rfl | hk
        · exact absurd hkc h
        · exact h2 k hk hkc
      · rintro ⟨h1, h2⟩
        exact ⟨h1, fun k hk => h2 k (List.mem_cons_of_mem _ hk)⟩

theorem verifyRangeProofs_ok {E : Env} (l : List (Output E)) :
    Block.verifyRangeProofs l = .ok () ↔ ∀ o ∈ l, E.rangeVerify o.commit o.proof = true := by
  induction l with
  | nil => simp [Block.verifyRangeProofs]
  | cons o l ih =>
    simp only [Block.verifyRangeProofs]
    split <;> simp_all

/-- **C32.** -/
theorem C32_block_rule {E : Env} (b : Block E) :
    b.validate = .ok () ↔
      b.header.validate E = .ok () ∧
      b.outputs ≠ [] ∧ b.kernels ≠ [] ∧
      InOrder (inputKey E) b.inputs ∧ InOrder outputKey b.outputs ∧ InOrder (kernelKey E) b.kernels ∧
      (b.outputs.filter (fun o => isCoinbase o.features)).length ≤ 1 ∧
      (b.kernels.filter (fun k => isCoinbase k.features)).length ≤ 1 ∧
      (∀ k ∈ b.kernels, isCoinbase k.features = true → Signed E k) ∧
      (∀ o ∈ b.outputs, E.rangeVerify o.commit o.proof = true) := by
  have s1 : isSorted (Input.less E) b.inputs = true ↔ InOrder (inputKey E) b.inputs := by
    rw [show Input.less E = fun x y => bytesLt (inputKey E x) (inputKey E y) from rfl,
      isSorted_iff_pairwise]
    simp [InOrder]
  have s2 : isSorted Output.less b.outputs = true ↔ InOrder outputKey b.outputs := by
    rw [show (Output.less (E := E)) = fun x y => bytesLt (outputKey x) (outputKey y) from rfl,
      isSorted_iff_pairwise]
    simp [InOrder]
  have s3 : isSorted (TxKernel.less E) b.kernels = true ↔ InOrder (kernelKey E) b.kernels := by
    rw [show TxKernel.less E = fun x y => bytesLt (kernelKey E x) (kernelKey E y) from rfl,
      isSorted_iff_pairwise]
    simp [InOrder]
  rw [← s1, ← s2, ← s3]
  unfold Block.validate Block.verifySorted
  cases hh : b.header.validate E with
  | err e => simp
  | panic e => simp
  | fatal e => simp
  | ok u =>
    rw [Out.bind_ok]
    by_cases h0 : b.outputs.length = 0 ∨ b.kernels.length = 0
    · rw [if_pos h0]
      rcases h0 with h0 | h0 <;> simp [List.length_eq_zero_iff.1 h0]
    rw [if_neg h0]
    have ho : b.outputs ≠ [] := fun h => h0 (Or.inl (by simp [h]))
    have hk : b.kernels ≠ [] := fun h => h0 (Or.inr (by simp [h]))
    by_cases h1 : isSorted (Input.less E) b.inputs = true
    swap
    · rw [if_pos h1]; simp [h1]
    rw [if_neg (not_not.2 h1)]
    by_cases h2 : isSorted Output.less b.outputs = true
    swap
    · rw [if_pos h2]; simp [h2]
    rw [if_neg (not_not.2 h2)]
    by_cases h3 : isSorted (TxKernel.less E) b.kernels = true
    swap
    · rw [if_pos h3]; simp [h3]
    rw [if_neg (not_not.2 h3), Out.bind_ok]
    have bind_ok_iff : ∀ (x y : Out Unit), (x >>= fun _ => y) = .ok () ↔ x = .ok () ∧ y = .ok () := by
      intro x y; cases x <;> simp
    rw [bind_ok_iff, bind_ok_iff, verifyCoinbaseLoop_ok, verifyRangeProofs_ok, verifyKernelsLoop_ok]
    constructor
    · rintro ⟨a, c, d, e⟩
      exact ⟨rfl, ho, hk, h1, h2, h3, by omega, by omega, e, c⟩
    · rintro ⟨-, -, -, -, -, -, a, c, d, e⟩
      exact ⟨by omega, e, by omega, d⟩

/-- The real Testnet4 block 65,927 is valid in the model, so the rule is met by a real block. -/
theorem C32_real_block : ∃ b : Block Concrete.env, Vectors.block = some b ∧ b.validate = .ok () := by
  have h := Vectors.block_vector
  cases hb : Vectors.block with
  | none => rw [hb] at h; simp at h
  | some b =>
    rw [hb] at h
    simp only [Bool.and_eq_true, beq_iff_eq] at h
    exact ⟨b, rfl, h.1⟩

/-- **C33, the part that holds**: the signatures of kernels with the coinbase flag verify. The property
asks it of every kernel, which is false: see `C33_refuted`. -/
theorem C33_coinbase_signed_partial {E : Env} (b : Block E) (h : b.validate = .ok ()) :
    ∀ k ∈ b.kernels, isCoinbase k.features = true → Signed E k :=
  ((C32_block_rule b).1 h).2.2.2.2.2.2.2.2.1

/-- **C33 is false of the code.** Any kernel without the coinbase flag, whatever its signature, can be
inserted into any valid block at its place in the order, and the block is still valid. -/
theorem C33_refuted {E : Env} (b : Block E) (h : b.validate = .ok ()) (k : TxKernel)
    (hk : isCoinbase k.features = false) :
    ∃ ks : List TxKernel, ks.Perm (k :: b.kernels) ∧
      ({ b with kernels := ks } : Block E).validate = .ok () := by
  rw [C32_block_rule] at h
  obtain ⟨h1, h2, h3, h4, h5, h6, h7, h8, h9, h10⟩ := h
  let less : TxKernel → TxKernel → Prop := fun x y => bytesLt (kernelKey E y) (kernelKey E x) = false
  have hp : (List.insertionSort less (k :: b.kernels)).Perm (k :: b.kernels) :=
    List.perm_insertionSort _ _
  refine ⟨List.insertionSort less (k :: b.kernels), hp, ?_⟩
  rw [C32_block_rule]
  refine ⟨h1, h2, ?_, h4, h5, ?_, h7, ?_, ?_, h10⟩
  · intro h
    have := hp.length_eq
    simp only at h
    rw [h] at this
    simp at this
  · have := insertionSort_sorted (kernelKey E) (k :: b.kernels)
    rw [isSorted_iff_pairwise] at this
    simpa [InOrder] using this
  · show ((List.insertionSort less (k :: b.kernels)).filter _).length ≤ 1
    rw [(hp.filter _).length_eq, List.filter_cons_of_neg (by simp [hk])]
    exact h8
  · intro k' hk' hc
    rcases List.mem_cons.1 (hp.mem_iff.1 hk') with rfl | hm
    · rw [hk] at hc; cases hc
    · exact h9 k' hm hc

/-- **C34, the part that holds**: the coinbase output and the coinbase kernel occur once. -/
theorem C34_coinbase_once_partial {E : Env} (b : Block E) (h : b.validate = .ok ()) :
    (∀ o ∈ b.outputs, isCoinbase o.features = true → ∃ l r, b.outputs = l ++ o :: r ∧ o ∉ l ∧ o ∉ r) ∧
    (∀ k ∈ b.kernels, isCoinbase k.features = true → ∃ l r, b.kernels = l ++ k :: r ∧ k ∉ l ∧ k ∉ r) := by
  have aux : ∀ {α : Type} (p : α → Bool) (l : List α), (l.filter p).length ≤ 1 →
      ∀ a ∈ l, p a = true → ∃ x y, l = x ++ a :: y ∧ a ∉ x ∧ a ∉ y := by
    intro α p l hl a ha hpa
    obtain ⟨x, y, rfl⟩ := List.append_of_mem ha
    refine ⟨x, y, rfl, ?_, ?_⟩
    · intro hx
      have : 1 ≤ (x.filter p).length := List.length_pos_iff.2 (List.ne_nil_of_mem (List.mem_filter.2 ⟨hx, hpa⟩))
      rw [List.filter_append, List.filter_cons_of_pos hpa, List.length_append, List.length_cons] at hl
      omega
    · intro hx
      have : 1 ≤ (y.filter p).length := List.length_pos_iff.2 (List.ne_nil_of_mem (List.mem_filter.2 ⟨hx, hpa⟩))
      rw [List.filter_append, List.filter_cons_of_pos hpa, List.length_append, List.length_cons] at hl
      omega
  have h' := (C32_block_rule b).1 h
  exact ⟨aux (fun o : Output E => isCoinbase o.features) _ h'.2.2.2.2.2.2.1,
    aux (fun k : TxKernel => isCoinbase k.features) _ h'.2.2.2.2.2.2.2.1⟩

theorem pairwise_flatMap_replicate {α : Type} {r : α → α → Prop} (refl : ∀ a, r a a) (n : Nat)
    {l : List α} (h : l.Pairwise r) : (l.flatMap (List.replicate n)).Pairwise r := by
  induction l with
  | nil => simp
  | cons a l ih =>
    rw [List.pairwise_cons] at h
    rw [List.flatMap_cons, List.pairwise_append]
    refine ⟨List.pairwise_replicate.2 (Or.inr (refl a)), ih h.2, ?_⟩
    intro x hx y hy
    obtain ⟨z, hz, hy⟩ := List.mem_flatMap.1 hy
    rw [(List.mem_replicate.1 hx).2, (List.mem_replicate.1 hy).2]
    exact h.1 z hz

/-- **C34 is false of the code.** In any valid block every input can be repeated any number of times in
place: the block is still valid. -/
theorem C34_refuted {E : Env} (b : Block E) (h : b.validate = .ok ()) (n : Nat) :
    ({ b with inputs := b.inputs.flatMap (List.replicate n) } : Block E).validate = .ok () := by
  rw [C32_block_rule] at h ⊢
  obtain ⟨h1, h2, h3, h4, h5, h6, h7, h8, h9, h10⟩ := h
  exact ⟨h1, h2, h3, pairwise_flatMap_replicate (fun a => by simp [bytesLt_irrefl]) n h4, h5, h6, h7, h8,
    h9, h10⟩

/-- Inputs are not examined at all beyond their order: any list in order may replace them. -/
theorem C34_inputs_unchecked {E : Env} (b : Block E) (h : b.validate = .ok ()) (l : List Input)
    (hl : InOrder (inputKey E) l) : ({ b with inputs := l } : Block E).validate = .ok () := by
  rw [C32_block_rule] at h ⊢
  obtain ⟨h1, h2, h3, h4, h5, h6, h7, h8, h9, h10⟩ := h
  exact ⟨h1, h2, h3, hl, h5, h6, h7, h8, h9, h10⟩

/-- So there is a block, valid in the model with the real hash and curve, that spends one input twice. -/
example : ∃ (b : Block Concrete.env) (i : Input), b.validate = .ok () ∧ b.inputs = [i, i] := by
  obtain ⟨b, -, hb⟩ := C32_real_block
  refine ⟨{ b with inputs := [⟨0, []⟩, ⟨0, []⟩] }, ⟨0, []⟩, C34_inputs_unchecked b hb _ ?_, rfl⟩
  simp [InOrder, bytesLt_irrefl]

end Gringo.Props
