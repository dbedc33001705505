import Verif.Props.Headers
/-
C14-C20, C39: blocks, transactions, compact blocks, locators, short ids.
-/
namespace Gringo.Props
open Gringo.Spec

/-- **C14.** A block with a well-formed header and at most a million well-formed inputs, outputs and
kernels each can be serialised, and reading the bytes back, whatever follows, gives a block with the same
header (as far as it is transmitted) and the same three lists in hash order. -/
theorem C14_block_roundtrip (E : Env) (P : Point → Prop) (Q : E.Prf → Prop) (hE : PointCodec E P)
    (hQ : PrfCodec E Q) (hS : SortOK E) (hmem : 336 ≤ E.maxAlloc)
    (hmem2 : 1000000 * (104 + E.outputSize) ≤ E.maxAlloc) (b : Block E)
    (wf : WellFormedHeader b.header) (hi : InputsOK b.inputs) (ho : OutputsOK P Q b.outputs)
    (hk : KernelsOK P b.kernels) (ni : b.inputs.length ≤ 1000000) (no : b.outputs.length ≤ 1000000)
    (nk : b.kernels.length ≤ 1000000) :
    ∃ v b', b.bytes = .ok v ∧ Reads (Block.read E) v b' ∧ b'.header = onWire b.header ∧
      SortedVersion (inputKey E) b.inputs b'.inputs ∧
      SortedVersion outputKey b.outputs b'.outputs ∧
      SortedVersion (kernelKey E) b.kernels b'.kernels := by
  obtain ⟨w, hw, -, hr⟩ := C12_header_roundtrip E hmem b.header wf
  have si := hS.sortedVersion (inputKey E) b.inputs
  have so := hS.sortedVersion outputKey b.outputs
  have sk := hS.sortedVersion (kernelKey E) b.kernels
  refine ⟨_, { b.sorted with header := onWire b.header },
    by simp only [Block.bytes, Block.bytesAndState, hw, Out.bind_ok, Out.pure_def]; rfl, ?_,
    rfl, si, so, sk⟩
  intro r
  obtain ⟨ti, mi⟩ := ofNat_le_max ni
  obtain ⟨t_o, mo⟩ := ofNat_le_max no
  obtain ⟨tk, mk⟩ := ofNat_le_max nk
  have ri := Reads.readMany (rd := Input.read) Input.bytes b.sorted.inputs
    (fun i h => (C28_input i (hi i (si.1.mem_iff.1 h))).2)
  have ro := Reads.readMany (rd := Output.read E) Output.bytes b.sorted.outputs
    (fun o h => by
      obtain ⟨h1, h2, h3⟩ := ho o (so.1.mem_iff.1 h)
      exact (C28_output E P Q hE hQ o h1 h2 h3).2)
  have rk := Reads.readMany (rd := TxKernel.read E) (TxKernel.bytes E) b.sorted.kernels
    (fun k h => by
      obtain ⟨h1, h2⟩ := hk k (sk.1.mem_iff.1 h)
      exact (C28_kernel E P hE k h1 h2).2)
  have li : b.sorted.inputs.length = b.inputs.length := si.1.length_eq
  have lo : b.sorted.outputs.length = b.outputs.length := so.1.length_eq
  have lk : b.sorted.kernels.length = b.kernels.length := sk.1.length_eq
  rw [li] at ri; rw [lo] at ro; rw [lk] at rk
  have e1 : b.inputs.length * 32 ≤ E.maxAlloc := by
    have := Nat.mul_le_mul_right 32 ni; omega
  have e2 : b.outputs.length * E.outputSize ≤ E.maxAlloc := by
    have := Nat.mul_le_mul_right E.outputSize no
    rw [Nat.mul_add] at hmem2; omega
  have e3 : b.kernels.length * 104 ≤ E.maxAlloc := by
    have := Nat.mul_le_mul_right 104 nk; omega
  simp only [Block.read, List.append_assoc, Rd.bind_run, hr _, Rd.cont_ok, Rd.u64_be64]
  rw [if_neg mi, if_neg mo, if_neg mk]
  simp only [Rd.bind_run, ti, t_o, tk, Rd.make_ok e1, Rd.make_ok e2, Rd.make_ok e3, Rd.cont_ok, ri _, ro _,
    rk _, Rd.pure_run]

/-- A block with two inputs, one output and one kernel, none of them in order. -/
def sampleBlock : Block Toy.env where
  header := sampleHeader
  inputs := [{ features := 1, commit := List.replicate 33 7 }, { features := 0, commit := List.replicate 33 7 }]
  outputs := [{ features := 1, commit := ⟨5, 1⟩, proof := [1, 2, 3] }]
  kernels := [{ features := 1, fee := 3, lockHeight := 4, excess := ⟨6, 0⟩, excessSig := List.replicate 64 8 }]

/-- The hypotheses of C14 can be met. -/
example : ∃ v b', sampleBlock.bytes = .ok v ∧ Reads (Block.read Toy.env) v b' ∧
    b'.inputs.length = 2 := by
  obtain ⟨v, b', h1, h2, -, h3, -⟩ := C14_block_roundtrip Toy.env Toy.OKPoint (fun _ => True)
    Toy.pointCodec Toy.prfCodec Toy.sortOK (by norm_num) (by norm_num) sampleBlock sampleHeader_wf
    (by intro i hi; simp [sampleBlock] at hi; rcases hi with rfl | rfl <;> rfl)
    (by intro o ho; simp [sampleBlock] at ho; subst ho; exact ⟨⟨by norm_num, by norm_num⟩, trivial, by simp⟩)
    (by intro k hk; simp [sampleBlock] at hk; subst hk; exact ⟨⟨by norm_num, by norm_num⟩, rfl⟩)
    (by simp [sampleBlock]) (by simp [sampleBlock]) (by simp [sampleBlock])
  exact ⟨v, b', h1, h2, by rw [h3.1.length_eq]; rfl⟩

/-- Elements of `l` with the same key are equal. -/
def KeyInjOn {α : Type} (key : α → Bytes) (l : List α) : Prop :=
  ∀ a ∈ l, ∀ b ∈ l, key a = key b → a = b

/-- **C15, canonicity.** Two blocks with the same header and the same elements, in any order, serialise
to the same bytes, provided different elements of a list have different hashes. -/
theorem C15_canonical (E : Env) (hS : SortOK E) (a b : Block E) (hh : a.header = b.header)
    (pi : a.inputs.Perm b.inputs) (po : a.outputs.Perm b.outputs) (pk : a.kernels.Perm b.kernels)
    (ii : KeyInjOn (inputKey E) a.inputs)
    (io : KeyInjOn outputKey a.outputs)
    (ik : KeyInjOn (kernelKey E) a.kernels) :
    a.bytes = b.bytes := by
  have key : ∀ {α : Type} (key : α → Bytes) (l l' : List α), l.Perm l' → KeyInjOn key l →
      E.sortBy (fun a b => bytesLt (key a) (key b)) l =
        E.sortBy (fun a b => bytesLt (key a) (key b)) l' := by
    intro α key l l' hp hinj
    refine sorted_perm_unique key ?_ ?_ (hS.sorted key l) (hS.sorted key l')
    · exact (hS.perm key l).trans (hp.trans (hS.perm key l').symm)
    · intro x hx y hy
      exact hinj x ((hS.perm key l).mem_iff.1 hx) y ((hS.perm key l).mem_iff.1 hy)
  have h1 : a.sorted.inputs = b.sorted.inputs := key _ _ _ pi ii
  have h2 : a.sorted.outputs = b.sorted.outputs := key _ _ _ po io
  have h3 : a.sorted.kernels = b.sorted.kernels := key _ _ _ pk ik
  simp only [Block.bytes, Block.bytesAndState, hh, h1, h2, h3, pi.length_eq, po.length_eq, pk.length_eq]
  cases b.header.bytes <;> rfl

/-- **C15, side effect.** Serialising leaves the header alone and replaces each list by its sorted
version; nothing else of the block changes. -/
theorem C15_side_effect (E : Env) (hS : SortOK E) (b b' : Block E) (v : Bytes)
    (h : b.bytesAndState = .ok (v, b')) :
    b'.header = b.header ∧
      SortedVersion (inputKey E) b.inputs b'.inputs ∧
      SortedVersion outputKey b.outputs b'.outputs ∧
      SortedVersion (kernelKey E) b.kernels b'.kernels := by
  have hb : b' = b.sorted := by
    unfold Block.bytesAndState at h
    cases hw : b.header.bytes <;> rw [hw] at h <;> simp at h
    exact h.2.symm
  subst hb
  exact ⟨rfl, hS.sortedVersion _ _, hS.sortedVersion _ _, hS.sortedVersion _ _⟩

/-- **C15, idempotence.** Serialising the block again after it was serialised gives the same bytes
(again provided different elements have different hashes). -/
theorem C15_idempotent (E : Env) (hS : SortOK E) (b b' : Block E) (v : Bytes)
    (h : b.bytesAndState = .ok (v, b'))
    (ii : KeyInjOn (inputKey E) b.inputs)
    (io : KeyInjOn outputKey b.outputs)
    (ik : KeyInjOn (kernelKey E) b.kernels) :
    b'.bytes = .ok v := by
  obtain ⟨h1, h2, h3, h4⟩ := C15_side_effect E hS b b' v h
  have := C15_canonical E hS b b' h1.symm h2.1.symm h3.1.symm h4.1.symm ii io ik
  rw [← this, Block.bytes, h]
  rfl

/-- The two orders of the inputs of the sample block serialise alike, and not because they are equal. -/
example : sampleBlock.bytes = { sampleBlock with inputs := sampleBlock.inputs.reverse }.bytes ∧
    sampleBlock.inputs ≠ sampleBlock.inputs.reverse := by
  refine ⟨C15_canonical Toy.env Toy.sortOK sampleBlock
    { sampleBlock with inputs := sampleBlock.inputs.reverse } rfl
    (List.reverse_perm _).symm (List.Perm.refl _) (List.Perm.refl _) ?_ ?_ ?_, ?_⟩
  · intro x hx y hy
    simp [sampleBlock] at hx hy
    rcases hx with rfl | rfl <;> rcases hy with rfl | rfl <;> first | (intro _; rfl) | (intro h; exfalso; revert h; decide +kernel)
  · intro x hx y hy _
    simp [sampleBlock] at hx hy
    rw [hx, hy]
  · intro x hx y hy _
    simp [sampleBlock] at hx hy
    rw [hx, hy]
  · decide +kernel


/-- **C16, blocks.** Whatever the header and whatever follows: if one of the three announced counts
exceeds a million, decoding fails right after the counts, with nothing more read, and (because this
holds for every memory limit that allows to read a header) nothing allocated. -/
theorem C16_block_limits (E : Env) (s rest : Bytes) (h : BlockHeader) (a b c : UInt64)
    (hs : BlockHeader.read E s = (.ok h, be64 a ++ be64 b ++ be64 c ++ rest))
    (hbig : 1000000 < a.toNat ∨ 1000000 < b.toNat ∨ 1000000 < c.toNat) :
    ∃ e, Block.read E s = (.err e, rest) := by
  simp only [List.append_assoc] at hs
  simp only [Block.read, Rd.bind_run, hs, Rd.cont_ok, Rd.u64_be64]
  by_cases h1 : a > UInt64.ofNat MaxListLen
  · exact ⟨_, by rw [if_pos h1]; rfl⟩
  rw [if_neg h1]
  by_cases h2 : b > UInt64.ofNat MaxListLen
  · exact ⟨_, by rw [if_pos h2]; rfl⟩
  rw [if_neg h2]
  by_cases h3 : c > UInt64.ofNat MaxListLen
  · exact ⟨_, by rw [if_pos h3]; rfl⟩
  rw [gt_max_iff] at h1 h2 h3
  omega

/-- **C16, transactions.** -/
theorem C16_tx_limits (E : Env) (offset rest : Bytes) (ho : offset.length = 32) (a b c : UInt64)
    (hbig : 1000000 < a.toNat ∨ 1000000 < b.toNat ∨ 1000000 < c.toNat) :
    ∃ e, Transaction.read E (offset ++ be64 a ++ be64 b ++ be64 c ++ rest) = (.err e, rest) := by
  simp only [Transaction.read, List.append_assoc, Rd.bind_run, Rd.readFull_append ho, Rd.cont_ok,
    Rd.u64_be64]
  by_cases h1 : a > UInt64.ofNat MaxListLen
  · exact ⟨_, by rw [if_pos h1]; rfl⟩
  rw [if_neg h1]
  by_cases h2 : b > UInt64.ofNat MaxListLen
  · exact ⟨_, by rw [if_pos h2]; rfl⟩
  rw [if_neg h2]
  by_cases h3 : c > UInt64.ofNat MaxListLen
  · exact ⟨_, by rw [if_pos h3]; rfl⟩
  rw [gt_max_iff] at h1 h2 h3
  omega

/-- What is known about any stream a block was decoded from. -/
theorem block_read_ok {E : Env} {s r : Bytes} {b : Block E} (h : Block.read E s = (.ok b, r)) :
    (∃ r1, BlockHeader.read E s = (.ok b.header, r1)) ∧ b.inputs.length ≤ 1000000 ∧
      b.outputs.length ≤ 1000000 ∧ b.kernels.length ≤ 1000000 := by
  simp only [Block.read, Rd.bind_run] at h
  obtain ⟨hd, r1, h1, h⟩ := cont_eq_ok h
  simp only [Rd.bind_run] at h
  obtain ⟨a, r2, h2, h⟩ := cont_eq_ok h
  simp only [Rd.bind_run] at h
  obtain ⟨b', r3, h3, h⟩ := cont_eq_ok h
  simp only [Rd.bind_run] at h
  obtain ⟨c, r4, h4, h⟩ := cont_eq_ok h
  split at h
  · simp at h
  split at h
  · simp at h
  split at h
  · simp at h
  rename_i g1 g2 g3
  rw [gt_max_iff] at g1 g2 g3
  simp only [Rd.bind_run] at h
  obtain ⟨-, r5, -, h⟩ := cont_eq_ok h
  simp only [Rd.bind_run] at h
  obtain ⟨ins, r6, h6, h⟩ := cont_eq_ok h
  simp only [Rd.bind_run] at h
  obtain ⟨-, r7, -, h⟩ := cont_eq_ok h
  simp only [Rd.bind_run] at h
  obtain ⟨outs, r8, h8, h⟩ := cont_eq_ok h
  simp only [Rd.bind_run] at h
  obtain ⟨-, r9, -, h⟩ := cont_eq_ok h
  simp only [Rd.bind_run] at h
  obtain ⟨kers, r10, h10, h⟩ := cont_eq_ok h
  simp only [Rd.pure_run, Prod.mk.injEq, Out.ok.injEq] at h
  obtain ⟨rfl, -⟩ := h
  have := readMany_length h6
  have := readMany_length h8
  have := readMany_length h10
  exact ⟨⟨_, h1⟩, by simp only; omega, by simp only; omega, by simp only; omega⟩

/-- **C16, consequence.** No decoded block has more than a million inputs, outputs or kernels. -/
theorem C16_decoded_counts (E : Env) (s r : Bytes) (b : Block E) (h : Block.read E s = (.ok b, r)) :
    b.inputs.length ≤ 1000000 ∧ b.outputs.length ≤ 1000000 ∧ b.kernels.length ≤ 1000000 :=
  (block_read_ok h).2

/-- The limits of C16 are hit by actual streams. -/
example : ∃ e, Transaction.read Toy.env (List.replicate 32 0 ++ be64 1000001 ++ be64 0 ++ be64 0 ++ []) =
    (.err e, []) :=
  C16_tx_limits Toy.env _ [] (by simp) 1000001 0 0 (by left; decide)

/-! ### Transactions -/

/-- What is known about any stream a transaction was decoded from. -/
theorem tx_read_ok {E : Env} {s r : Bytes} {t : Transaction E} (h : Transaction.read E s = (.ok t, r)) :
    ∃ (offset : Bytes) (a b c : UInt64) (r1 r2 : Bytes), s = offset ++ r1 ∧ offset.length = 32 ∧
      (do let x ← Rd.u64; let y ← Rd.u64; let z ← Rd.u64; pure (x, y, z) : Rd (UInt64 × UInt64 × UInt64)) r1
        = (.ok (a, b, c), r2) ∧
      (∃ r3, Rd.readMany a.toNat Input.read r2 = (.ok t.inputs, r3)) ∧
      isSorted (Input.less E) t.inputs = true ∧ isSorted Output.less t.outputs = true ∧
      isSorted (TxKernel.less E) t.kernels = true := by
  simp only [Transaction.read, Rd.bind_run] at h
  obtain ⟨off, r1, h1, h⟩ := cont_eq_ok h
  simp only [Rd.bind_run] at h
  obtain ⟨a, r2, h2, h⟩ := cont_eq_ok h
  simp only [Rd.bind_run] at h
  obtain ⟨b', r3, h3, h⟩ := cont_eq_ok h
  simp only [Rd.bind_run] at h
  obtain ⟨c, r4, h4, h⟩ := cont_eq_ok h
  split at h
  · simp at h
  split at h
  · simp at h
  split at h
  · simp at h
  simp only [Rd.bind_run] at h
  obtain ⟨u5, r5, h5, h⟩ := cont_eq_ok h
  simp only [Rd.bind_run] at h
  obtain ⟨ins, r6, h6, h⟩ := cont_eq_ok h
  simp only [Rd.bind_run] at h
  obtain ⟨-, r7, -, h⟩ := cont_eq_ok h
  simp only [Rd.bind_run] at h
  obtain ⟨outs, r8, h8, h⟩ := cont_eq_ok h
  simp only [Rd.bind_run] at h
  obtain ⟨-, r9, -, h⟩ := cont_eq_ok h
  simp only [Rd.bind_run] at h
  obtain ⟨kers, r10, h10, h⟩ := cont_eq_ok h
  split at h
  · simp at h
  split at h
  · simp at h
  split at h
  · simp at h
  rename_i g1 g2 g3
  simp only [Rd.pure_run, Prod.mk.injEq, Out.ok.injEq] at h
  obtain ⟨rfl, -⟩ := h
  obtain ⟨e1, e2⟩ := Rd.readFull_ok h1
  have hr5 : r5 = r4 := by
    unfold Rd.make at h5
    split at h5
    · simp at h5; exact h5.symm
    · simp at h5
  subst hr5
  exact ⟨off, a, b', c, r1, r5, e1, e2, by simp [h2, h3, h4], ⟨r6, h6⟩, by simpa using g1,
    by simpa using g2, by simpa using g3⟩

/-- **C17, the part that holds.** A transaction *without inputs* round-trips. The full property is false
as soon as there is an input: see `C17_refuted`. -/
theorem C17_no_inputs_partial (E : Env) (P : Point → Prop) (Q : E.Prf → Prop) (hE : PointCodec E P)
    (hQ : PrfCodec E Q) (hS : SortOK E) (hmem : 1000000 * (104 + E.outputSize) ≤ E.maxAlloc)
    (t : Transaction E) (hoff : t.kernelOffset.length = 32) (hin : t.inputs = [])
    (ho : OutputsOK P Q t.outputs) (hk : KernelsOK P t.kernels)
    (no : t.outputs.length ≤ 1000000) (nk : t.kernels.length ≤ 1000000) :
    ∃ t', Reads (Transaction.read E) t.bytes t' ∧ t'.kernelOffset = t.kernelOffset ∧ t'.inputs = [] ∧
      SortedVersion outputKey t.outputs t'.outputs ∧
      SortedVersion (kernelKey E) t.kernels t'.kernels := by
  have so := hS.sortedVersion outputKey t.outputs
  have sk := hS.sortedVersion (kernelKey E) t.kernels
  have si : t.sorted.inputs = [] := by
    have : (t.sorted.inputs).Perm t.inputs := hS.perm (inputKey E) t.inputs
    rw [hin] at this; exact this.eq_nil
  refine ⟨t.sorted, ?_, rfl, si, so, sk⟩
  intro r
  obtain ⟨t_o, mo⟩ := ofNat_le_max no
  obtain ⟨tk, mk⟩ := ofNat_le_max nk
  have ro := Reads.readMany (rd := Output.read E) Output.bytes t.sorted.outputs
    (fun o h => by
      obtain ⟨h1, h2, h3⟩ := ho o (so.1.mem_iff.1 h)
      exact (C28_output E P Q hE hQ o h1 h2 h3).2)
  have rk := Reads.readMany (rd := TxKernel.read E) (TxKernel.bytes E) t.sorted.kernels
    (fun k h => by
      obtain ⟨h1, h2⟩ := hk k (sk.1.mem_iff.1 h)
      exact (C28_kernel E P hE k h1 h2).2)
  have lo : t.sorted.outputs.length = t.outputs.length := so.1.length_eq
  have lk : t.sorted.kernels.length = t.kernels.length := sk.1.length_eq
  rw [lo] at ro; rw [lk] at rk
  have e2 : t.outputs.length * E.outputSize ≤ E.maxAlloc := by
    have := Nat.mul_le_mul_right E.outputSize no
    rw [Nat.mul_add] at hmem; omega
  have e3 : t.kernels.length * 104 ≤ E.maxAlloc := by
    have := Nat.mul_le_mul_right 104 nk; omega
  have so' : isSorted Output.less t.sorted.outputs = true := hS.sorted outputKey t.outputs
  have sk' : isSorted (TxKernel.less E) t.sorted.kernels = true := hS.sorted (kernelKey E) t.kernels
  simp only [Transaction.read, Transaction.bytes, hin, si, List.append_assoc, Rd.bind_run,
    Rd.readFull_append hoff, Rd.cont_ok, Rd.u64_be64, List.flatMap_nil, List.nil_append, List.length_nil]
  rw [if_neg (by decide), if_neg mo, if_neg mk]
  have e1 : (UInt64.ofNat 0).toNat = 0 := rfl
  simp only [Rd.bind_run, e1, t_o, tk, Rd.make_ok (show 0 * 32 ≤ E.maxAlloc by omega), Rd.make_ok e2,
    Rd.make_ok e3, Rd.cont_ok, ro _, rk _, Rd.readMany, Rd.pure_run, so', sk', isSorted]
  simp only [not_true, if_false]
  rw [Rd.pure_run, ← si]
  rfl

/-- **C17 is false of the code** for every transaction with inputs whose feature bytes do not happen to
occur as first bytes of the commitments (in reality feature bytes are 0 or 1 and commitments start with 8
or 9): `Bytes` leaves the feature bytes out, so whatever `Read` makes of the bytes, it never has the same
inputs, in any order. -/
theorem C17_refuted (E : Env) (hS : SortOK E) (t : Transaction E) (hoff : t.kernelOffset.length = 32)
    (hne : t.inputs ≠ []) (hcount : t.inputs.length < 2 ^ 64)
    (hfeat : ∀ i ∈ t.inputs, ∀ j ∈ t.inputs, ∃ c cs, j.commit = c :: cs ∧ i.features ≠ c)
    (rest r : Bytes) (t' : Transaction E)
    (h : Transaction.read E (t.bytes ++ rest) = (.ok t', r)) : ¬ t'.inputs.Perm t.inputs := by
  obtain ⟨off, a, b, c, r1, r2, e1, e2, e3, ⟨r3, e4⟩, -⟩ := tx_read_ok h
  have hp : (t.sorted.inputs).Perm t.inputs := hS.perm (inputKey E) t.inputs
  obtain ⟨j, js, hj⟩ : ∃ j js, t.sorted.inputs = j :: js := by
    cases hs : t.sorted.inputs with
    | nil => rw [hs] at hp; exact absurd hp.nil_eq.symm hne
    | cons j js => exact ⟨j, js, rfl⟩
  have hjm : j ∈ t.inputs := hp.mem_iff.1 (by rw [hj]; simp)
  simp only [Transaction.bytes, List.append_assoc] at e1
  have hr1 := (List.append_inj e1 (by rw [hoff, e2])).2
  subst hr1
  simp only [Rd.bind_run, Rd.u64_be64, Rd.cont_ok, Rd.pure_run, Prod.mk.injEq, Out.ok.injEq] at e3
  obtain ⟨⟨rfl, rfl, rfl⟩, rfl⟩ := e3
  obtain ⟨n, hn⟩ : ∃ n, t.inputs.length = n + 1 := by
    cases hl : t.inputs with
    | nil => exact absurd hl hne
    | cons x xs => exact ⟨xs.length, rfl⟩
  have hnat : (UInt64.ofNat t.inputs.length).toNat = n + 1 := by
    rw [UInt64.toNat_ofNat', Nat.mod_eq_of_lt hcount, hn]
  rw [hnat, hj] at e4
  simp only [Rd.readMany, Rd.bind_run] at e4
  obtain ⟨i, r4, h4, e4⟩ := cont_eq_ok e4
  simp only [Rd.bind_run] at e4
  obtain ⟨l, r5, h5, e4⟩ := cont_eq_ok e4
  simp only [Rd.pure_run, Prod.mk.injEq, Out.ok.injEq] at e4
  intro hperm
  have him : i ∈ t.inputs := hperm.mem_iff.1 (by rw [← e4.1]; simp)
  obtain ⟨c, cs, hc, hne'⟩ := hfeat i him j hjm
  simp only [List.flatMap_cons, hc, List.cons_append, Input.read, Rd.bind_run, Rd.u8_cons,
    Rd.cont_ok] at h4
  obtain ⟨cm, r6, h6, h4⟩ := cont_eq_ok h4
  simp only [Rd.pure_run, Prod.mk.injEq, Out.ok.injEq] at h4
  apply hne'
  rw [← h4.1]

/-- A transaction with one input, as on the network. -/
def sampleTx : Transaction Toy.env where
  kernelOffset := List.replicate 32 0
  inputs := [{ features := 0, commit := 8 :: List.replicate 32 7 }]
  outputs := [{ features := 0, commit := ⟨5, 1⟩, proof := [1, 2, 3] }]
  kernels := [{ features := 0, fee := 3, lockHeight := 4, excess := ⟨6, 0⟩, excessSig := List.replicate 64 8 }]

/-- The hypotheses of C17_refuted are met by an ordinary transaction; reading its bytes fails. -/
example : (∀ i ∈ sampleTx.inputs, ∀ j ∈ sampleTx.inputs, ∃ c cs, j.commit = c :: cs ∧ i.features ≠ c) ∧
    (Transaction.read Toy.env sampleTx.bytes).1.isOk = false := by
  refine ⟨?_, ?_⟩
  · intro i hi j hj
    simp [sampleTx] at hi hj
    subst hi hj
    exact ⟨8, _, rfl, by decide⟩
  · decide +kernel

/-- **C18.** A transaction accepted from the wire has its inputs, outputs and kernels in non-decreasing
hash order. -/
theorem C18_tx_sorted (E : Env) (s r : Bytes) (t : Transaction E)
    (h : Transaction.read E s = (.ok t, r)) :
    t.inputs.Pairwise (fun a b => ¬ bytesLt (inputKey E b) (inputKey E a)) ∧
    t.outputs.Pairwise (fun a b => ¬ bytesLt (outputKey b) (outputKey a)) ∧
    t.kernels.Pairwise (fun a b => ¬ bytesLt (kernelKey E b) (kernelKey E a)) := by
  obtain ⟨-, -, -, -, -, -, -, -, -, -, h1, h2, h3⟩ := tx_read_ok h
  refine ⟨((isSorted_iff_pairwise (inputKey E) _).1 h1).imp ?_,
    ((isSorted_iff_pairwise outputKey _).1 h2).imp ?_,
    ((isSorted_iff_pairwise (kernelKey E) _).1 h3).imp ?_⟩ <;> (intro a b h; simp [h])

end Gringo.Props
