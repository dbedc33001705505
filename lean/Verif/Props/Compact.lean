import Verif.Props.Blocks
/-
C19, C20, C39: compact blocks, locators, short ids.
-/
namespace Gringo.Props
open Gringo.Spec

/-- **C19, the part that holds.** A compact block with *at most 255* outputs and at most 255 kernels (and
6-byte short ids, as many as memory allows to hold) round-trips. Beyond 255 the property is false: see
`C19_refuted`. -/
theorem C19_compact_roundtrip_partial (E : Env) (P : Point → Prop) (Q : E.Prf → Prop) (hE : PointCodec E P)
    (hQ : PrfCodec E Q) (hS : SortOK E) (hmem : 255 * (104 + E.outputSize) ≤ E.maxAlloc)
    (b : CompactBlock E) (wf : WellFormedHeader b.header) (ho : OutputsOK P Q b.outputs)
    (hk : KernelsOK P b.kernels) (hid : ∀ x ∈ b.kernelIDs, x.length = 6)
    (no : b.outputs.length ≤ 255) (nk : b.kernels.length ≤ 255)
    (nid : b.kernelIDs.length < 2 ^ 64) (mid : b.kernelIDs.length * 24 ≤ E.maxAlloc) :
    ∃ v b', b.bytes = .ok v ∧ Reads (CompactBlock.read E) v b' ∧ b'.header = onWire b.header ∧
      SortedVersion outputKey b.outputs b'.outputs ∧
      SortedVersion (kernelKey E) b.kernels b'.kernels ∧
      SortedVersion id b.kernelIDs b'.kernelIDs := by
  obtain ⟨w, hw, -, hr⟩ := C12_header_roundtrip E (by omega) b.header wf
  have so := hS.sortedVersion outputKey b.outputs
  have sk := hS.sortedVersion (kernelKey E) b.kernels
  have sid := hS.sortedVersion id b.kernelIDs
  refine ⟨_, { b.sorted with header := onWire b.header },
    by simp only [CompactBlock.bytes, hw, Out.bind_ok, Out.pure_def]; rfl, ?_, rfl, so, sk, sid⟩
  intro r
  have t_o : (UInt8.ofNat b.outputs.length).toNat = b.outputs.length := by
    rw [UInt8.toNat_ofNat']; apply Nat.mod_eq_of_lt; omega
  have tk : (UInt8.ofNat b.kernels.length).toNat = b.kernels.length := by
    rw [UInt8.toNat_ofNat']; apply Nat.mod_eq_of_lt; omega
  have tid : (UInt64.ofNat b.kernelIDs.length).toNat = b.kernelIDs.length := by
    rw [UInt64.toNat_ofNat']; apply Nat.mod_eq_of_lt; omega
  have ro := Reads.readMany (rd := Output.read E) Output.bytes b.sorted.outputs
    (fun o h => by
      obtain ⟨h1, h2, h3⟩ := ho o (so.1.mem_iff.1 h)
      exact (C28_output E P Q hE hQ o h1 h2 h3).2)
  have rk := Reads.readMany (rd := TxKernel.read E) (TxKernel.bytes E) b.sorted.kernels
    (fun k h => by
      obtain ⟨h1, h2⟩ := hk k (sk.1.mem_iff.1 h)
      exact (C28_kernel E P hE k h1 h2).2)
  have rid := Reads.readMany (rd := Rd.readFull ShortIDSize) id b.sorted.kernelIDs
    (fun x h => Reads.readFull (hid x (sid.1.mem_iff.1 h)))
  have lo : b.sorted.outputs.length = b.outputs.length := so.1.length_eq
  have lk : b.sorted.kernels.length = b.kernels.length := sk.1.length_eq
  have lid : b.sorted.kernelIDs.length = b.kernelIDs.length := sid.1.length_eq
  rw [lo] at ro; rw [lk] at rk; rw [lid, List.flatMap_id] at rid
  have e2 : b.outputs.length * E.outputSize ≤ E.maxAlloc := by
    have := Nat.mul_le_mul_right E.outputSize no
    rw [Nat.mul_add] at hmem; omega
  have e3 : b.kernels.length * 104 ≤ E.maxAlloc := by
    have := Nat.mul_le_mul_right 104 nk; omega
  simp only [CompactBlock.read, List.append_assoc, List.cons_append, List.nil_append, Rd.bind_run, hr _, Rd.cont_ok,
    Rd.u8_cons, Rd.u64_be64, t_o, tk, tid, Rd.make_ok e2, Rd.make_ok e3, Rd.make_ok mid, ro _, rk _, rid _,
    Rd.pure_run]

/-- **C19 is false of the code** as soon as there are more than 255 outputs or kernels: the counts are
written as single bytes, so whatever is decoded from the serialisation has fewer outputs, or fewer
kernels, than the compact block had. -/
theorem C19_refuted (E : Env) (hmem : 336 ≤ E.maxAlloc) (b : CompactBlock E) (v : Bytes)
    (wf : WellFormedHeader b.header) (hv : b.bytes = .ok v)
    (hbig : 255 < b.outputs.length ∨ 255 < b.kernels.length) (rest r : Bytes) (b' : CompactBlock E)
    (h : CompactBlock.read E (v ++ rest) = (.ok b', r)) :
    b'.outputs.length < b.outputs.length ∨ b'.kernels.length < b.kernels.length := by
  obtain ⟨w, hw, -, hr⟩ := C12_header_roundtrip E hmem b.header wf
  simp only [CompactBlock.bytes, hw, Out.bind_ok, Out.pure_def, Out.ok.injEq] at hv
  subst hv
  simp only [CompactBlock.read, List.append_assoc, List.cons_append, List.nil_append, Rd.bind_run, hr _, Rd.cont_ok,
    Rd.u8_cons, Rd.u64_be64] at h
  obtain ⟨u1, r1, -, h⟩ := cont_eq_ok h
  simp only [Rd.bind_run] at h
  obtain ⟨os, r2, h2, h⟩ := cont_eq_ok h
  simp only [Rd.bind_run] at h
  obtain ⟨u3, r3, -, h⟩ := cont_eq_ok h
  simp only [Rd.bind_run] at h
  obtain ⟨ks, r4, h4, h⟩ := cont_eq_ok h
  simp only [Rd.bind_run] at h
  obtain ⟨u5, r5, -, h⟩ := cont_eq_ok h
  simp only [Rd.bind_run] at h
  obtain ⟨is, r6, h6, h⟩ := cont_eq_ok h
  simp only [Rd.pure_run, Prod.mk.injEq, Out.ok.injEq] at h
  obtain ⟨rfl, -⟩ := h
  have e2 := readMany_length h2
  have e4 := readMany_length h4
  have := (UInt8.ofNat b.outputs.length).toNat_lt
  have := (UInt8.ofNat b.kernels.length).toNat_lt
  simp only [e2, e4]
  omega

/-- A compact block with one output, one kernel and two short ids. -/
def sampleCompact : CompactBlock Toy.env where
  header := sampleHeader
  outputs := [{ features := 1, commit := ⟨5, 1⟩, proof := [1, 2, 3] }]
  kernels := [{ features := 1, fee := 3, lockHeight := 4, excess := ⟨6, 0⟩, excessSig := List.replicate 64 8 }]
  kernelIDs := [[9, 9, 9, 9, 9, 9], [1, 2, 3, 4, 5, 6]]

/-- The hypotheses of C19 can be met. -/
example : ∃ v b', sampleCompact.bytes = .ok v ∧ Reads (CompactBlock.read Toy.env) v b' ∧
    b'.kernelIDs.length = 2 := by
  obtain ⟨v, b', h1, h2, -, -, -, h3⟩ := C19_compact_roundtrip_partial Toy.env Toy.OKPoint (fun _ => True)
    Toy.pointCodec Toy.prfCodec Toy.sortOK (by norm_num) sampleCompact sampleHeader_wf
    (by intro o ho; simp [sampleCompact] at ho; subst ho; exact ⟨⟨by norm_num, by norm_num⟩, trivial, by simp⟩)
    (by intro k hk; simp [sampleCompact] at hk; subst hk; exact ⟨⟨by norm_num, by norm_num⟩, rfl⟩)
    (by intro x hx; simp [sampleCompact] at hx; rcases hx with rfl | rfl <;> rfl)
    (by simp [sampleCompact]) (by simp [sampleCompact]) (by simp [sampleCompact]) (by simp [sampleCompact])
  exact ⟨v, b', h1, h2, by rw [h3.1.length_eq]; rfl⟩

/-- 256 times the same output. -/
def bigCompact : CompactBlock Toy.env where
  header := sampleHeader
  outputs := List.replicate 256 { features := 0, commit := ⟨5, 1⟩, proof := [] }
  kernels := []
  kernelIDs := []

/-- The hypotheses of C19_refuted can be met, and decoding then does succeed (losing 256 outputs). -/
example : ∃ v b', bigCompact.bytes = .ok v ∧
    (CompactBlock.read Toy.env v).1 = .ok b' ∧ b'.outputs.length = 0 := by
  obtain ⟨w, hw, -, hr⟩ := C12_header_roundtrip Toy.env (by norm_num) sampleHeader sampleHeader_wf
  refine ⟨_, ⟨onWire sampleHeader, [], [], []⟩,
    by simp only [CompactBlock.bytes, bigCompact, hw, Out.bind_ok, Out.pure_def]; rfl, ?_, rfl⟩
  have e : (UInt8.ofNat 256).toNat = 0 := rfl
  have e' : (UInt8.ofNat 0).toNat = 0 := rfl
  have e'' : (UInt64.ofNat 0).toNat = 0 := rfl
  simp only [CompactBlock.read, List.append_assoc, List.cons_append, List.nil_append, Rd.bind_run, hr _, Rd.cont_ok,
    Rd.u8_cons, Rd.u64_be64, List.length_replicate, List.length_nil, e, e', e'', Rd.readMany, Rd.pure_run,
    Rd.make_ok (show 0 * 400 ≤ 2 ^ 48 by norm_num), Rd.make_ok (show 0 * 104 ≤ 2 ^ 48 by norm_num),
    Rd.make_ok (show 0 * 24 ≤ 2 ^ 48 by norm_num)]

/-! ### Locators -/

/-- **C20, round trip.** A locator with at most 14 hashes of 32 bytes is read back. -/
theorem C20_locator_roundtrip (l : Locator) (hn : l.hashes.length ≤ 14)
    (hh : ∀ x ∈ l.hashes, x.length = 32) :
    ∃ v, l.bytes = .ok v ∧ v.length = 1 + 32 * l.hashes.length ∧ Reads Locator.read v l := by
  refine ⟨_, by rw [Locator.bytes, if_neg (by unfold MaxLocators; omega)], ?_, ?_⟩
  · have : l.hashes.flatten.length = 32 * l.hashes.length := by
      obtain ⟨hs⟩ := l
      clear hn
      simp only at hh ⊢
      induction hs with
      | nil => rfl
      | cons x t ih =>
        rw [List.flatten_cons, List.length_append, ih (fun y hy => hh y (by simp [hy])), hh x (by simp),
          List.length_cons]
        omega
    simp [this]; omega
  · intro r
    have e : (UInt8.ofNat l.hashes.length).toNat = l.hashes.length := by
      rw [UInt8.toNat_ofNat']; apply Nat.mod_eq_of_lt; omega
    have rh := Reads.readMany (rd := Rd.readFull BlockHashSize) id l.hashes
      (fun x h => Reads.readFull (hh x h))
    rw [List.flatMap_id] at rh
    simp only [Locator.read, List.cons_append, List.nil_append, Rd.bind_run, Rd.u8_cons, Rd.cont_ok,
      e]
    rw [if_neg (by unfold MaxLocators; omega)]
    simp only [Rd.bind_run, rh _, Rd.cont_ok, Rd.pure_run]

/-- **C20, decoding.** A decoded locator has at most 14 hashes, all of 32 bytes. -/
theorem C20_locator_decoded (s r : Bytes) (l : Locator) (h : Locator.read s = (.ok l, r)) :
    l.hashes.length ≤ 14 ∧ ∀ x ∈ l.hashes, x.length = 32 := by
  simp only [Locator.read, Rd.bind_run] at h
  obtain ⟨c, r1, h1, h⟩ := cont_eq_ok h
  split at h
  · simp at h
  · rename_i hc
    simp only [Rd.bind_run] at h
    obtain ⟨hs, r2, h2, h⟩ := cont_eq_ok h
    simp only [Rd.pure_run, Prod.mk.injEq, Out.ok.injEq] at h
    obtain ⟨rfl, -⟩ := h
    have e := readMany_length h2
    refine ⟨by simp only [e]; unfold MaxLocators at hc; omega, ?_⟩
    exact readMany_forall (fun h => (Rd.readFull_ok h).2) h2

/-- **C20, encoding.** Serialising a locator terminates the process exactly when it has more than 14
hashes; otherwise it succeeds. -/
theorem C20_locator_fatal (l : Locator) :
    ((∃ m, l.bytes = .fatal m) ↔ 14 < l.hashes.length) ∧
      (l.hashes.length ≤ 14 → l.bytes.isOk = true) := by
  unfold Locator.bytes MaxLocators
  constructor
  · constructor
    · rintro ⟨m, h⟩; split at h
      · assumption
      · simp at h
    · intro h; rw [if_pos h]; exact ⟨_, rfl⟩
  · intro h; rw [if_neg (by omega)]; rfl

/-- The hypotheses of C20 can be met. -/
example : ∃ v, Locator.bytes ⟨List.replicate 14 (List.replicate 32 1)⟩ = .ok v ∧
    Reads Locator.read v ⟨List.replicate 14 (List.replicate 32 1)⟩ := by
  obtain ⟨v, h1, -, h2⟩ := C20_locator_roundtrip ⟨List.replicate 14 (List.replicate 32 1)⟩ (by simp)
    (by intro x hx; rw [List.eq_of_mem_replicate hx]; simp)
  exact ⟨v, h1, h2⟩

/-! ### Short ids -/

/-- **C39.** With a block hash of at least 16 bytes, the short id has 6 bytes and, read as a
little-endian number, it is the SipHash (keyed with the first two little-endian 64-bit words of the block
hash) modulo 2^48. With a shorter block hash the call panics. -/
theorem C39_short_id (E : Env) (h bh : Bytes) :
    (16 ≤ bh.length → ∃ id, shortID E h bh = .ok id ∧ id.length = 6 ∧
      ofLE id = (E.siphash (UInt64.ofNat (ofLE (bh.take 8))) (UInt64.ofNat (ofLE ((bh.drop 8).take 8)))
        h).toNat % 2 ^ 48) ∧
    (bh.length < 16 → ∃ m, shortID E h bh = .panic m) := by
  constructor
  · intro hb
    refine ⟨_, by rw [shortID, if_neg (by omega)], by simp [le_length], ?_⟩
    have e : ∀ (n k x : Nat), (le (n + k) x).take n = le n x := by
      intro n
      induction n with
      | zero => intro k x; simp [le]
      | succ n ih =>
        intro k x
        rw [show n + 1 + k = (n + k) + 1 by omega, le, List.take_succ_cons, ih k (x / 256), le]
    rw [e 6 2, ofLE_le]
    norm_num
  · intro hb
    exact ⟨_, by rw [shortID, if_pos hb]⟩

/-- The short id of a hash is determined by the low 48 bits and conversely. -/
example : ∃ id, shortID Toy.env [1, 2, 3] (List.replicate 32 5) = .ok id ∧ id.length = 6 := by
  obtain ⟨id, h1, h2, -⟩ := (C39_short_id Toy.env [1, 2, 3] (List.replicate 32 5)).1 (by simp)
  exact ⟨id, h1, h2⟩

end Gringo.Props
