import Verif.Props.ChainWitness
import Verif.Curve.Instance
import Verif.Curve.Lawful
import Mathlib.Algebra.BigOperators.Group.List.Basic
/-
C83-C91: what a user of a chain takes for granted about accepted blocks.
-/
set_option maxRecDepth 100000
namespace Gringo.Props
open Gringo.Spec

/-! ### C83: a header commits to its block -/

theorem beI64_inj {a b : Int} (ha1 : -(2 ^ 63) ≤ a) (ha2 : a < 2 ^ 63) (hb1 : -(2 ^ 63) ≤ b) (hb2 : b < 2 ^ 63)
    (h : beI64 a = beI64 b) : a = b := by
  have := Rd.i64_beI64 ha1 ha2 []
  rw [h, Rd.i64_beI64 hb1 hb2 []] at this
  simpa using this.symm

theorem toUnix_inj {a b : Time} (ha : a.nsec = 0) (ha1 : -(2 ^ 63) ≤ a.sec) (ha2 : a.sec < 2 ^ 63) (hb : b.nsec = 0)
    (hb1 : -(2 ^ 63) ≤ b.sec) (hb2 : b.sec < 2 ^ 63) (h : a.toUnix = b.toUnix) : a = b := by
  obtain ⟨s, n⟩ := a
  obtain ⟨s', n'⟩ := b
  simp only at *
  subst ha hb
  unfold Time.toUnix Time.unixToInternal wrapI64 at h
  simp only at h
  congr
  omega

/-- **C83, the part that holds**: the message a proof of work is made for determines every transmitted field of
the header but the proof itself. -/
theorem C83_header_fields_partial (a b : BlockHeader) (wa : WellFormedHeader a) (wb : WellFormedHeader b)
    (h : powMessage a = powMessage b) :
    onWire { a with pow := b.pow } = onWire b := by
  unfold powMessage at h
  obtain ⟨h, e14⟩ := List.append_inj' h (by simp [be64, be_length])
  obtain ⟨h, e13⟩ := List.append_inj' h (by simp [be32, be_length])
  obtain ⟨h, e12⟩ := List.append_inj' h (by simp [be64, be_length])
  obtain ⟨h, e11⟩ := List.append_inj' h (by simp [be64, be_length])
  obtain ⟨h, e10⟩ := List.append_inj' h (by simp [be64, be_length])
  obtain ⟨h, e9⟩ := List.append_inj' h (by rw [wa.totalKernelOffset, wb.totalKernelOffset])
  obtain ⟨h, e8⟩ := List.append_inj' h (by rw [wa.kernelRoot, wb.kernelRoot])
  obtain ⟨h, e7⟩ := List.append_inj' h (by rw [wa.rangeProofRoot, wb.rangeProofRoot])
  obtain ⟨h, e6⟩ := List.append_inj' h (by rw [wa.utxoRoot, wb.utxoRoot])
  obtain ⟨h, e5⟩ := List.append_inj' h (by rw [wa.previousRoot, wb.previousRoot])
  obtain ⟨h, e4⟩ := List.append_inj' h (by rw [wa.previous, wb.previous])
  obtain ⟨h, e3⟩ := List.append_inj' h (by simp [beI64_length])
  obtain ⟨e1, e2⟩ := List.append_inj' h (by simp [be64, be_length])
  obtain ⟨v, ht, pr, prr, ts, ur, rr, kr, n, off, ks, om, km, pw, d, td, sd⟩ := a
  obtain ⟨v', ht', pr', prr', ts', ur', rr', kr', n', off', ks', om', km', pw', d', td', sd'⟩ := b
  have u64 : ∀ {x y : UInt64}, be64 x = be64 y → x = y :=
    fun h => UInt64.toNat_inj.1 (be_inj (UInt64.toNat_lt _) (UInt64.toNat_lt _) h)
  simp only at *
  have t1 : ∀ t : Time, -(2 ^ 63) ≤ t.toUnix ∧ t.toUnix < 2 ^ 63 := by
    intro t; unfold Time.toUnix wrapI64; omega
  have ets : ts = ts' := toUnix_inj wa.wholeSecond wa.timeLow wa.timeHigh wb.wholeSecond wb.timeLow wb.timeHigh
    (beI64_inj (t1 _).1 (t1 _).2 (t1 _).1 (t1 _).2 e3)
  have ev : v = v' := UInt16.toNat_inj.1 (be_inj (UInt16.toNat_lt _) (UInt16.toNat_lt _) e1)
  have es : sd = sd' := UInt32.toNat_inj.1 (be_inj (UInt32.toNat_lt _) (UInt32.toNat_lt _) e13)
  simp only [onWire, BlockHeader.mk.injEq, true_and]
  exact ⟨ev, u64 e2, e4, e5, ets, e6, e7, e8, u64 e14, e9, u64 e10, u64 e11, u64 e12, es⟩

/-- **C83 is false of the code.** The header of any valid block goes with the inputs, outputs and kernels of any
other: the roots in the header are not compared with anything. -/
theorem C83_refuted {E : Env} (b b' : Block E) (h : b.validate = .ok ()) (h' : b'.validate = .ok ()) :
    ({ b' with header := b.header } : Block E).validate = .ok () := by
  rw [C32_block_rule] at h h' ⊢
  exact ⟨h.1, h'.2⟩

/-- Whether a block is accepted depends on its contents only through validation. -/
theorem accepted_body {E : Env} (c : Chain E) (st : Storage E) (b b' : Block E) (hh : b'.header = b.header)
    (hv : b'.validate = .ok ()) (h : (c.processBlock st b).1 = .ok ()) : (c.processBlock st b').1 = .ok () := by
  have e1 : b'.hash = b.hash := by unfold Block.hash; rw [hh]
  have e2 : Chain.checkParent st b' = Chain.checkParent st b := by unfold Chain.checkParent; rw [hh]
  unfold Chain.processBlock at h ⊢
  simp only [e1, e2, hv] at h ⊢
  cases h1 : c.head.hash with
  | ok x =>
    cases h2 : b.hash with
    | ok y =>
      simp only [h1, h2, Out.bind_ok] at h ⊢
      by_cases e : x = y
      · rw [if_pos e]; rfl
      · rw [if_neg e] at h ⊢
        cases h3 : b.validate with
        | ok _ => rw [h3] at h; simpa using h
        | _ => rw [h3] at h; simp at h
    | _ => simp [h1, h2] at h
  | _ => simp [h1] at h

/-- Two blocks, valid with the real hash functions, with the same header and different inputs. -/
example : ∃ b b' : Block Concrete.env, b.validate = .ok () ∧ b'.validate = .ok () ∧ b.header = b'.header ∧
    b.inputs ≠ b'.inputs := by
  obtain ⟨b, -, hb⟩ := C32_real_block
  have h0 := C34_inputs_unchecked b hb [⟨0, []⟩] (by simp [InOrder])
  have h1 := C34_inputs_unchecked b hb [] (by simp [InOrder])
  exact ⟨_, _, h0, h1, rfl, by simp⟩

/-! ### C84: no money from nothing -/

/-- The given outputs at their places in the order. -/
theorem sorted_exists {α : Type} (key : α → Bytes) (l : List α) : ∃ l' : List α, l'.Perm l ∧ InOrder key l' := by
  refine ⟨l.insertionSort fun a b => bytesLt (key b) (key a) = false, List.perm_insertionSort _ _, ?_⟩
  have := insertionSort_sorted key l
  rw [isSorted_iff_pairwise] at this
  simpa [InOrder] using this

/-- Any outputs without the coinbase flag whose range proofs verify can be added to any valid block. -/
theorem C84_add_outputs {E : Env} (b : Block E) (h : b.validate = .ok ()) (extra : List (Output E))
    (hf : ∀ o ∈ extra, isCoinbase o.features = false) (hr : ∀ o ∈ extra, E.rangeVerify o.commit o.proof = true) :
    ∃ os : List (Output E), os.Perm (extra ++ b.outputs) ∧ ({ b with outputs := os } : Block E).validate = .ok () := by
  rw [C32_block_rule] at h
  obtain ⟨h1, h2, h3, h4, h5, h6, h7, h8, h9, h10⟩ := h
  obtain ⟨os, hp, hs⟩ := sorted_exists outputKey (extra ++ b.outputs)
  refine ⟨os, hp, (C32_block_rule _).2 ⟨h1, ?_, h3, h4, hs, h6, ?_, h8, h9, ?_⟩⟩
  · rintro rfl
    have := hp.nil_eq
    exact h2 (List.append_eq_nil_iff.1 this.symm).2
  · show (os.filter _).length ≤ 1
    rw [(hp.filter _).length_eq, List.filter_append, List.filter_eq_nil_iff.2 (by intro o ho; simp [hf o ho])]
    exact h7
  · intro o ho
    rcases List.mem_append.1 (hp.mem_iff.1 ho) with h | h
    · exact hr o h
    · exact h10 o h

/-- **C84 is false of the code.** Let `value` map a commitment to the group element it stands for, and let
`required` be whatever the sum of the outputs has to be, given the rest of the block. From any accepted block and
any further output of nonzero value with a verifying range proof, there is an accepted block with the same header,
inputs and kernels whose outputs do not have the required sum. -/
theorem C84_refuted {E : Env} {Γ : Type} [AddCommGroup Γ] (value : Point → Γ)
    (required : BlockHeader → List Input → List TxKernel → Γ) (c : Chain E) (st : Storage E) (b : Block E)
    (hv : b.validate = .ok ()) (hacc : (c.processBlock st b).1 = .ok ()) (o : Output E)
    (hf : isCoinbase o.features = false) (hr : E.rangeVerify o.commit o.proof = true) (hne : value o.commit ≠ 0) :
    ∃ os, ({ b with outputs := os } : Block E).validate = .ok () ∧
      (c.processBlock st { b with outputs := os }).1 = .ok () ∧
      (os.map fun o => value o.commit).sum ≠ required b.header b.inputs b.kernels := by
  by_cases heq : (b.outputs.map fun o => value o.commit).sum = required b.header b.inputs b.kernels
  · obtain ⟨os, hp, hos⟩ := C84_add_outputs b hv [o] (by simpa using hf) (by simpa using hr)
    refine ⟨os, hos, accepted_body c st b _ rfl hos hacc, ?_⟩
    rw [(hp.map _).sum_eq, ← heq]
    simpa using hne
  · exact ⟨b.outputs, hv, hacc, heq⟩

/-- **C84, the part that holds**: each output of a valid block has a verifying range proof. -/
theorem C84_range_partial {E : Env} (b : Block E) (h : b.validate = .ok ()) :
    ∀ o ∈ b.outputs, E.rangeVerify o.commit o.proof = true :=
  ((C32_block_rule b).1 h).2.2.2.2.2.2.2.2.2

/-- The real block has an output, and an output with the same commitment and proof can be added a hundred times. -/
example : ∃ (b : Block Concrete.env) (o : Output Concrete.env), Vectors.block = some b ∧ o ∈ b.outputs ∧
    ∃ os, os.Perm (List.replicate 100 { o with features := 0 } ++ b.outputs) ∧
      ({ b with outputs := os } : Block Concrete.env).validate = .ok () := by
  obtain ⟨b, hb, hv⟩ := C32_real_block
  obtain ⟨o, ho⟩ := List.exists_mem_of_ne_nil _ ((C32_block_rule b).1 hv).2.1
  refine ⟨b, o, hb, ho, C84_add_outputs b hv _ ?_ ?_⟩
  · intro x hx
    obtain rfl := List.eq_of_mem_replicate hx
    rfl
  · intro x hx
    obtain rfl := List.eq_of_mem_replicate hx
    exact C84_range_partial b hv o ho

open Classical in
/-- `C84_refuted` on the real curve, for any balance rule, from the real block; the added output commits to the
generator. (Range proofs are not modelled for the real curve: `rangeVerify` is constant there.) -/
example (required : BlockHeader → List Input → List TxKernel → Curve.W.Point) :
    ∃ (c : Chain Concrete.env) (b : Block Concrete.env), (c.processBlock (sqlStorage _) b).1 = .ok () ∧
      b.validate = .ok () ∧
      (b.outputs.map fun o => Function.invFun Curve.coords o.commit).sum ≠ required b.header b.inputs b.kernels := by
  obtain ⟨b, hb, hv⟩ := C32_real_block
  have hread : Block.read Concrete.env Vectors.serialisedBlock = (.ok b, []) := by
    unfold Vectors.block at hb
    split at hb
    · rename_i x hx
      rw [hx]; cases hb; rfl
    · cases hb
  obtain ⟨o, ho⟩ := List.exists_mem_of_ne_nil _ ((C32_block_rule b).1 hv).2.1
  have hg : Function.invFun Curve.coords Secp.G ≠ 0 := by
    rw [← Curve.coords_G, Function.leftInverse_invFun Curve.coords_injective]
    intro h
    have := congrArg Curve.coords h
    rw [Curve.coords_G, Curve.coords_zero] at this
    revert this
    decide
  obtain ⟨os, h1, h2, h3⟩ := C84_refuted (Function.invFun Curve.coords) required
    (Chain.new (testnet1 _) (sqlStorage _)) (sqlStorage _) b hv
    (C48_unknown_parent_partial _ _ _ _ b hread _ (genesis_hash Concrete.env .testnet1) hv (.inl rfl))
    ⟨0, Secp.G, o.proof⟩ rfl rfl hg
  exact ⟨_, _, h2, h1, h3⟩

/-! ### C85: lock heights -/

theorem valid_height {E : Env} (b : Block E) (h : b.validate = .ok ()) : b.header.height.toNat < 500000 := by
  have h1 := ((C32_block_rule b).1 h).1
  by_contra hc
  have := C29_no_version_after b.header.height b.header.version (by omega)
  unfold BlockHeader.validate at h1
  rw [if_pos (by simp [this])] at h1
  cases h1

/-- **C85 is false of the code.** To any accepted valid block a kernel can be added that is locked until any later
height, and the block is accepted still. -/
theorem C85_refuted {E : Env} (c : Chain E) (st : Storage E) (b : Block E) (hv : b.validate = .ok ())
    (hacc : (c.processBlock st b).1 = .ok ()) (lock : UInt64) :
    ∃ (ks : List TxKernel) (k : TxKernel), k ∈ ks ∧ k.lockHeight = lock ∧
      ({ b with kernels := ks } : Block E).validate = .ok () ∧
      (c.processBlock st { b with kernels := ks }).1 = .ok () := by
  obtain ⟨ks, hp, hk⟩ := C33_refuted b hv
    { features := 0, fee := 0, lockHeight := lock, excess := ⟨0, 0⟩, excessSig := [] } rfl
  exact ⟨ks, _, hp.mem_iff.2 (List.mem_cons_self ..), rfl, hk, accepted_body c st b _ rfl hk hacc⟩

/-- In particular one that is locked beyond the height of the block, since valid blocks are below 500 000. -/
theorem C85_refuted_locked {E : Env} (b : Block E) (hv : b.validate = .ok ()) :
    ∃ b' : Block E, b'.header = b.header ∧ b'.validate = .ok () ∧
      ∃ k ∈ b'.kernels, b'.header.height.toNat < k.lockHeight.toNat := by
  obtain ⟨ks, hp, hk⟩ := C33_refuted b hv
    { features := 0, fee := 0, lockHeight := 500000, excess := ⟨0, 0⟩, excessSig := [] } rfl
  exact ⟨{ b with kernels := ks }, rfl, hk, _, hp.mem_iff.2 (List.mem_cons_self ..), valid_height b hv⟩

/-- **C85, the part that holds**: the lock height of the coinbase kernel is covered by its signature: with another
lock height or fee the block is valid only if the signature verifies for those. -/
theorem C85_signed_partial {E : Env} (b : Block E) (h : b.validate = .ok ()) (k : TxKernel) (hk : k ∈ b.kernels)
    (hc : isCoinbase k.features = true) :
    Secp.verifySignature E k.excess (List.replicate 16 0 ++ be64 k.fee ++ be64 k.lockHeight)
      (Secp.decodeSignature E k.excessSig) = true :=
  C33_coinbase_signed_partial b h k hk hc

/-! ### C86: only valid blocks are accepted -/

/-- **C86, the part that holds**: an accepted block is valid, or its hash is that of the tip. -/
theorem C86_valid_partial {E : Env} (c : Chain E) (st : Storage E) (b : Block E)
    (h : (c.processBlock st b).1 = .ok ()) : b.validate = .ok () ∨ ∃ x, HasHash c.head x ∧ HasHash b x := by
  unfold Chain.processBlock at h
  unfold HasHash
  cases h1 : c.head.hash with
  | ok x =>
    cases h2 : b.hash with
    | ok y =>
      simp only [h1, h2, Out.bind_ok] at h
      by_cases e : x = y
      · exact .inr ⟨x, rfl, by rw [e]⟩
      · rw [if_neg e] at h
        cases h3 : b.validate with
        | ok _ => exact .inl rfl
        | _ => rw [h3] at h; simp at h
    | _ => simp [h1, h2] at h
  | _ => simp [h1] at h

/-- **C86 is false of the code.** Whatever the header and the contents say: a block with the proof of the tip is
accepted. The hash covers the nonces of the proof only. -/
theorem C86_refuted {E : Env} (c : Chain E) (st : Storage E) (x : Bytes) (hh : HasHash c.head x) (b : Block E)
    (hp : b.header.pow = c.head.header.pow) : (c.processBlock st b).1 = .ok () := by
  have hb : HasHash b x := by
    unfold HasHash Block.hash BlockHeader.hash at *
    rw [hp]; exact hh
  exact (C47_accept_rule c st b x x hh hb).2 (.inl rfl)

theorem no_outputs_invalid {E : Env} (b : Block E) (h : b.outputs = []) : b.validate ≠ .ok () := by
  intro hv
  exact ((C32_block_rule b).1 hv).2.1 h

/-- **C86 is false of the code, from the wire.** On any chain whose tip has a well-formed header, there are bytes
that decode to a block without outputs, with a total difficulty and height of the sender's choice, which is
invalid and accepted. -/
theorem C86_refuted_wire (E : Env) (P : Point → Prop) (Q : E.Prf → Prop) (hE : PointCodec E P) (hQ : PrfCodec E Q)
    (hS : SortOK E) (hmem : 336 ≤ E.maxAlloc) (hmem2 : 1000000 * (104 + E.outputSize) ≤ E.maxAlloc) (c : Chain E)
    (st : Storage E) (x : Bytes) (hh : HasHash c.head x) (wf : WellFormedHeader c.head.header)
    (height td : UInt64) :
    ∃ (wire : Bytes) (b : Block E), Block.read E wire = (.ok b, []) ∧ b.header.height = height ∧
      b.header.totalDifficulty = td ∧ b.outputs = [] ∧ b.validate ≠ .ok () ∧
      (c.processBlock st b).1 = .ok () := by
  obtain ⟨v, b', h1, h2, h3, -, h5, -⟩ := C14_block_roundtrip E P Q hE hQ hS hmem hmem2
    { header := { c.head.header with height := height, totalDifficulty := td }, inputs := [], outputs := [],
      kernels := [] } { wf with } (by intro i hi; cases hi) (by intro o ho; cases ho) (by intro k hk; cases hk)
    (by simp) (by simp) (by simp)
  have ho : b'.outputs = [] := h5.1.eq_nil
  refine ⟨v, b', by simpa using h2 [], ?_, ?_, ho, no_outputs_invalid b' ho, C86_refuted c st x hh b' ?_⟩ <;>
    rw [h3] <;> rfl

/-- A chain on which that happens, with the real hash functions and curve: the one headed by Testnet4 block 65,927. -/
example (height td : UInt64) : ∃ (c : Chain Concrete.env) (wire : Bytes) (b : Block Concrete.env),
    Block.read Concrete.env wire = (.ok b, []) ∧ b.header.height = height ∧ b.header.totalDifficulty = td ∧
    b.validate ≠ .ok () ∧ (c.processBlock (sqlStorage _) b).1 = .ok () := by
  obtain ⟨b, hb, hv⟩ := C32_real_block
  have hread : Block.read Concrete.env Vectors.serialisedBlock = (.ok b, []) := by
    unfold Vectors.block at hb
    split at hb
    · rename_i x hx
      rw [hx]; cases hb; rfl
    · cases hb
  obtain ⟨⟨r1, h1⟩, -⟩ := block_read_ok hread
  have hs := (C13_decoded_safe _ _ _ _ h1).2.1
  obtain ⟨x, hx⟩ : ∃ x, b.hash = .ok x := by
    unfold Block.hash
    cases hx : b.header.hash Concrete.env with
    | ok x => exact ⟨x, rfl⟩
    | _ => rw [hx] at hs; cases hs
  obtain ⟨wire, b', e1, e2, e3, -, e4, e5⟩ := C86_refuted_wire Concrete.env Curve.OKPoint (fun _ => True)
    Curve.pointCodec Curve.prfCodec Curve.sortOK (by decide) (by decide)
    { genesis := b, head := b, height := 0, totalDifficulty := 0 } (sqlStorage _) x hx
    (C13_decoded_shape _ _ _ _ h1).1 height td
  exact ⟨_, wire, b', e1, e2, e3, e4, e5⟩

/-! ### C87: one coinbase -/

/-- The same without the coinbase flag. -/
def unflag (f : UInt8) : UInt8 := f &&& 0xfe

theorem unflag_not_coinbase (f : UInt8) : isCoinbase (unflag f) = false := by
  have h : ∀ n : Fin 256, isCoinbase (unflag (UInt8.ofFin n)) = false := by decide +kernel
  exact h f.toFin

/-- **C87, the part that holds**: not more than one coinbase output and coinbase kernel. -/
theorem C87_at_most_one_partial {E : Env} (b : Block E) (h : b.validate = .ok ()) :
    (b.outputs.filter (fun o => isCoinbase o.features)).length ≤ 1 ∧
    (b.kernels.filter (fun k => isCoinbase k.features)).length ≤ 1 :=
  ⟨((C32_block_rule b).1 h).2.2.2.2.2.2.1, ((C32_block_rule b).1 h).2.2.2.2.2.2.2.1⟩

/-- **C87 is false of the code.** Take the coinbase flags off all outputs and kernels of a valid block, replace the
kernels' signatures by any others, and put everything in order: the block is valid, without any coinbase and
without any verified signature. -/
theorem C87_refuted {E : Env} (b : Block E) (h : b.validate = .ok ()) (sig : Bytes) :
    ∃ (os : List (Output E)) (ks : List TxKernel),
      os.Perm (b.outputs.map fun o => { o with features := unflag o.features }) ∧
      ks.Perm (b.kernels.map fun k => { k with features := unflag k.features, excessSig := sig }) ∧
      (∀ o ∈ os, isCoinbase o.features = false) ∧ (∀ k ∈ ks, isCoinbase k.features = false) ∧
      ({ b with outputs := os, kernels := ks } : Block E).validate = .ok () := by
  rw [C32_block_rule] at h
  obtain ⟨h1, h2, h3, h4, h5, h6, h7, h8, h9, h10⟩ := h
  obtain ⟨os, po, so⟩ := sorted_exists outputKey (b.outputs.map fun o => { o with features := unflag o.features })
  obtain ⟨ks, pk, sk⟩ := sorted_exists (kernelKey E)
    (b.kernels.map fun k => { k with features := unflag k.features, excessSig := sig })
  have fo : ∀ o ∈ os, isCoinbase o.features = false ∧ E.rangeVerify o.commit o.proof = true := by
    intro o ho
    obtain ⟨x, hx, rfl⟩ := List.mem_map.1 (po.mem_iff.1 ho)
    exact ⟨unflag_not_coinbase _, h10 x hx⟩
  have fk : ∀ k ∈ ks, isCoinbase k.features = false := by
    intro k hk
    obtain ⟨x, hx, rfl⟩ := List.mem_map.1 (pk.mem_iff.1 hk)
    exact unflag_not_coinbase _
  refine ⟨os, ks, po, pk, fun o ho => (fo o ho).1, fk, (C32_block_rule _).2
    ⟨h1, ?_, ?_, h4, so, sk, ?_, ?_, ?_, fun o ho => (fo o ho).2⟩⟩
  · rintro rfl
    exact h2 (List.map_eq_nil_iff.1 po.nil_eq.symm)
  · rintro rfl
    exact h3 (List.map_eq_nil_iff.1 pk.nil_eq.symm)
  · rw [List.filter_eq_nil_iff.2 (by intro o ho; simp [(fo o ho).1])]; simp
  · rw [List.filter_eq_nil_iff.2 (by intro k hk; simp [fk k hk])]; simp
  · intro k hk hc
    rw [fk k hk] at hc; cases hc

/-- A block without coinbase that is valid with the real hash functions. -/
example : ∃ b : Block Concrete.env, b.validate = .ok () ∧ ∀ k ∈ b.kernels, isCoinbase k.features = false ∧
    k.excessSig = [] := by
  obtain ⟨b, -, hb⟩ := C32_real_block
  obtain ⟨os, ks, -, pk, -, fk, hv⟩ := C87_refuted b hb []
  refine ⟨_, hv, fun k hk => ⟨fk k hk, ?_⟩⟩
  obtain ⟨x, hx, rfl⟩ := List.mem_map.1 (pk.mem_iff.1 hk)
  rfl

/-! ### C88: links -/

/-- An environment in which everything but the empty string has the hash `K`. -/
def constHash (E : Env) (K : Bytes) : Env := { E with blake2b := fun x => if x = [] then K.map (· + 1) else K }

/-- The block in that environment, with another header. -/
def inConstHash {E : Env} (K : Bytes) (b : Block E) (h : BlockHeader) : Block (constHash E K) :=
  { header := h, inputs := b.inputs, outputs := b.outputs.map fun o => ⟨o.features, o.commit, o.proof⟩,
    kernels := b.kernels }

/-- Nobody can mine inside a proof. With a hash function that maps everything to the hash a solution is known for,
the header fields that are not checked otherwise can be chosen freely. -/
theorem mined {E : Env} (b : Block E) (hv : b.validate = .ok ()) (wf : WellFormedHeader b.header) (h : BlockHeader)
    (wf' : WellFormedHeader h) (h1 : VersionAt h.height.toNat h.version.toNat) (h2 : NotTooFarAhead h.timestamp E.now)
    (h3 : h.scalingDifficulty = b.header.scalingDifficulty) (h4 : h.pow = b.header.pow) :
    (inConstHash (E.blake2b (powMessage b.header)) b h).validate = .ok () := by
  have hb := (C32_block_rule b).1 hv
  obtain ⟨g1, g2, g3, -, -, -, g7, g8, g9, g10⟩ := hb
  have hr := (C30_header_rule _ _ wf).1 g1
  have triv : ∀ {α : Type} (key : α → Bytes) (K : Bytes) (l : List α), (∀ a, key a = K) → InOrder key l := by
    intro α key K l hk
    unfold InOrder
    rw [List.pairwise_iff_forall_sublist]
    intro a c _
    rw [hk, hk]; simp [bytesLt_irrefl]
  generalize hK : E.blake2b (powMessage b.header) = K
  refine (C32_block_rule (inConstHash K b h)).2 ⟨?_, ?_, g3,
    triv (inputKey (constHash E K)) K _ (fun _ => rfl), triv (outputKey (E := constHash E K)) K _ (fun _ => rfl),
    triv (kernelKey (constHash E K)) K _ (fun _ => rfl), ?_, g8, g9, ?_⟩
  · refine (C30_header_rule _ _ wf').2 ⟨h1, h2, ?_, ?_⟩
    · show PowSizeOK h.pow.edgeBits.toNat h.scalingDifficulty.toNat
      rw [h3, h4]; exact hr.2.2.1
    · show (Cuckoo.newCuckaroo (constHash E K) (powMessage h)).verify h.pow.nonces h.pow.edgeBits = true
      have e : Cuckoo.newCuckaroo (constHash E K) (powMessage h) = Cuckoo.newCuckaroo E (powMessage b.header) := by
        have hne : powMessage h ≠ [] := by
          intro h0
          have := congrArg List.length h0
          simp [powMessage, wf'.previous] at this
        have hk : (constHash E K).blake2b (powMessage h) = E.blake2b (powMessage b.header) := by
          rw [hK]
          exact if_neg (e := K) (t := K.map (· + 1)) hne
        simp only [Cuckoo.newCuckaroo, hk]
      rw [h4, e]; exact hr.2.2.2
  · intro h; exact g2 (List.map_eq_nil_iff.1 h)
  · show ((b.outputs.map _).filter _).length ≤ 1
    rw [List.filter_map, List.length_map]; exact g7
  · intro o ho
    obtain ⟨x, hx, rfl⟩ := List.mem_map.1 ho
    exact g10 x hx

/-- **C88, the part that holds**: an accepted block other than the tip whose parent is found in a storage holding
a chain of blocks has the parent's hash as previous hash, is one higher, and later. -/
theorem C88_linked_partial {E : Env} (c : Chain E) (blocks : List (Block E)) (hc : Consecutive blocks) (b p : Block E)
    (headHash hash : Bytes) (hh : HasHash c.head headHash) (hb : HasHash b hash) (hne : hash ≠ headHash)
    (hacc : (c.processBlock (listStorage blocks) b).1 = .ok ())
    (hp : (listStorage blocks).getBlock (parentID b) = some p) :
    p ∈ blocks ∧ HasHash p b.header.previous ∧ b.header.height.toNat = p.header.height.toNat + 1 ∧
    Later b.header.timestamp p.header.timestamp := by
  have hm : p ∈ blocks := List.mem_of_find?_eq_some hp
  have hmatch : Matches (parentID b) p := by
    have := List.find?_some hp
    simpa using this
  refine ⟨hm, hmatch.1, ?_, ?_⟩
  · have hpH : p.header.height = b.header.height - 1 := hmatch.2
    obtain ⟨i, hi, hip⟩ := List.mem_iff_getElem.1 hm
    have hci := hc.2 i p (by rw [List.getElem?_eq_getElem hi, hip])
    have hlen := hc.1
    have hlt : p.header.height.toNat < 2 ^ 64 - 1 := by
      rw [hci, UInt64.toNat_ofNat', Nat.mod_eq_of_lt (by omega)]; omega
    have : b.header.height = p.header.height + 1 := by rw [hpH, UInt64.sub_add_cancel]
    rw [this, UInt64.toNat_add, show (1 : UInt64).toNat = 1 from rfl, Nat.mod_eq_of_lt (by omega)]
  · rcases (C47_accept_rule c _ b headHash hash hh hb).1 hacc with h | ⟨-, h | ⟨p', hp', hl, -⟩⟩
    · exact absurd h hne
    · rw [hp] at h; cases h
    · rw [hp] at hp'; cases hp'; exact hl

/-- **C88 is false of the code.** A valid block whose previous hash is that of a stored block, but whose height is
not one more than that of any such block, is taken for a block with an unknown parent and accepted: time, total
difficulty and difficulty are not checked. -/
theorem C88_refuted {E : Env} (c : Chain E) (blocks : List (Block E)) (b : Block E) (headHash hash : Bytes)
    (hh : HasHash c.head headHash) (hb : HasHash b hash) (hv : b.validate = .ok ())
    (hwrong : ∀ p ∈ blocks, HasHash p b.header.previous → p.header.height ≠ b.header.height - 1) :
    (c.processBlock (listStorage blocks) b).1 = .ok () := by
  refine (C47_accept_rule c _ b headHash hash hh hb).2 (.inr ⟨hv, .inl ?_⟩)
  show blocks.find? _ = none
  rw [List.find?_eq_none]
  intro p hp hm
  simp only [decide_eq_true_eq] at hm
  exact hwrong p hp hm.1 hm.2

/-- A well-formed header has a packed proof, which is not empty. -/
theorem packed_nonempty (h : BlockHeader) (wf : WellFormedHeader h) :
    ∃ r, h.pow.proofBytes = .ok r ∧ r ≠ [] := by
  obtain ⟨r, h1, h2, -⟩ := Proof.proofBytes_ok (p := h.pow) (by rw [wf.pow.2.2.1]; exact Nat.le_refl _)
  refine ⟨r, h1, ?_⟩
  rintro rfl
  have := wf.pow.1
  unfold Proof.packedLen ProofSize at h2
  simp only [List.length_nil] at h2
  omega

/-- A storage with one block of height 7, and a valid block of another height, with the same time stamp, that names
it as its predecessor. -/
example : ∃ (E : Env) (c : Chain E) (p b : Block E) (headHash hash : Bytes), HasHash c.head headHash ∧
    HasHash b hash ∧ hash ≠ headHash ∧ HasHash p b.header.previous ∧ p.header.height = 7 ∧
    b.header.height ≠ 8 ∧ b.header.timestamp = p.header.timestamp ∧ b.validate = .ok () ∧
    (c.processBlock (listStorage [p]) b).1 = .ok () := by
  obtain ⟨b, hb, hv⟩ := C32_real_block
  have wf : WellFormedHeader b.header := by
    unfold Vectors.block at hb
    split at hb
    · rename_i x hx
      cases hb
      obtain ⟨⟨r1, h1⟩, -⟩ := block_read_ok hx
      exact (C13_decoded_shape _ _ _ _ h1).1
    · cases hb
  have hr := (C30_header_rule _ _ wf).1 ((C32_block_rule b).1 hv).1
  have hheight : b.header.height ≠ 8 := by
    have := (by decide +kernel : (match Vectors.block with | some b => b.header.height != 8 | none => false) = true)
    rw [hb] at this
    simpa using this
  obtain ⟨r, hr1, hr2⟩ := packed_nonempty b.header wf
  generalize hK : Concrete.env.blake2b (powMessage b.header) = K
  have hlen : K.length = 32 := by rw [← hK]; exact Curve.hashLen.1 _
  have hhash : ∀ h : BlockHeader, h.pow = b.header.pow → HasHash (inConstHash K b h) K := by
    intro h hp
    unfold HasHash Block.hash BlockHeader.hash
    show (h.pow.proofBytes >>= _) = _
    rw [hp, hr1]
    exact congrArg Out.ok (if_neg (e := K) (t := K.map (· + 1)) hr2)
  have hvalid : (inConstHash K b { b.header with previous := K }).validate = .ok () := by
    rw [← hK]
    exact mined b hv wf _ { wf with previous := by rw [hK]; exact hlen } hr.1 hr.2.1 rfl rfl
  have hhead : HasHash (testnet1 (constHash Concrete.env K)) (K.map (· + 1)) :=
    genesis_hash (constHash Concrete.env K) .testnet1
  refine ⟨constHash Concrete.env K, ⟨testnet1 _, testnet1 _, 0, 0⟩, inConstHash K b { b.header with height := 7 },
    inConstHash K b { b.header with previous := K }, K.map (· + 1), K, hhead, hhash _ rfl, ?_, hhash _ rfl, rfl,
    hheight, rfl, hvalid, ?_⟩
  · cases K with
    | nil => simp at hlen
    | cons k t =>
      intro h
      have : k = k + 1 := (List.cons.inj h).1
      revert this
      have : ∀ n : Fin 256, UInt8.ofFin n ≠ UInt8.ofFin n + 1 := by decide +kernel
      exact this k.toFin
  · refine C88_refuted _ _ _ _ _ hhead (hhash _ rfl) hvalid ?_
    intro p hp _
    rw [List.mem_singleton.1 hp]
    show (7 : UInt64) ≠ b.header.height - 1
    intro h
    apply hheight
    rw [← UInt64.sub_add_cancel b.header.height 1, ← h]; rfl

/-! ### C89: chains of headers -/

/-- **C89, the part that holds**: every header of an accepted list is valid. -/
theorem C89_each_valid_partial (E : Env) (hs : List BlockHeader) (h : Chain.processHeaders E hs = .ok ()) :
    ∀ x ∈ hs, x.validate E = .ok () := ((C52_process_headers E hs).1).1 h

/-- **C89 is false of the code.** From any valid header, a list is accepted that is not a chain. In general, the
headers of an accepted list are accepted in any order and any number of times. -/
theorem C89_refuted (E : Env) (hs hs' : List BlockHeader) (h : Chain.processHeaders E hs = .ok ())
    (hsub : ∀ x ∈ hs', x ∈ hs) : Chain.processHeaders E hs' = .ok () :=
  ((C52_process_headers E hs').1).2 fun x hx => C89_each_valid_partial E hs h x (hsub x hx)

@[inherit_doc C89_refuted]
theorem C89_refuted_twice (E : Env) (x : BlockHeader) (h : x.validate E = .ok ()) :
    Chain.processHeaders E [x, x] = .ok () ∧ ¬ HeaderChain E [x, x] := by
  refine ⟨((C52_process_headers E _).1).2 (by simp [h]), ?_⟩
  rintro ⟨-, h, -⟩
  omega

example : ∃ x : BlockHeader, Chain.processHeaders Concrete.env [x, x] = .ok () ∧ ¬ HeaderChain Concrete.env [x, x] := by
  obtain ⟨x, -, h⟩ := real_header
  exact ⟨x, C89_refuted_twice _ x h⟩

/-! ### C90: inputs spend outputs -/

/-- **C90, the part that holds**: the inputs of a valid block are in order. -/
theorem C90_order_partial {E : Env} (b : Block E) (h : b.validate = .ok ()) : InOrder (inputKey E) b.inputs :=
  ((C32_block_rule b).1 h).2.2.2.1

/-- **C90 is false of the code.** Whatever is stored: with an accepted valid block, the same block with any other
inputs in order is accepted. So inputs may name outputs that never existed, were spent before, or are created by
the same block. -/
theorem C90_refuted {E : Env} (c : Chain E) (st : Storage E) (b : Block E) (hv : b.validate = .ok ())
    (hacc : (c.processBlock st b).1 = .ok ()) (l : List Input) (hl : InOrder (inputKey E) l) :
    ({ b with inputs := l } : Block E).validate = .ok () ∧
    (c.processBlock st { b with inputs := l }).1 = .ok () := by
  have := C34_inputs_unchecked b hv l hl
  exact ⟨this, accepted_body c st b _ rfl this hacc⟩

/-! ### C91: total difficulty -/

/-- **C91, the part that holds**: an accepted block other than the tip whose parent is found has the parent's total
difficulty plus the difficulty of the parent's proof; it is larger if that difficulty is not 0 and the sum stays
below 2^64. -/
theorem C91_grows_partial {E : Env} (c : Chain E) (st : Storage E) (b p : Block E) (headHash hash : Bytes)
    (hh : HasHash c.head headHash) (hb : HasHash b hash) (hne : hash ≠ headHash)
    (hacc : (c.processBlock st b).1 = .ok ()) (hp : st.getBlock (parentID b) = some p) :
    ∃ d : UInt64, p.header.pow.toDifficulty E = .ok d ∧
      b.header.totalDifficulty.toNat = (p.header.totalDifficulty.toNat + d.toNat) % 2 ^ 64 ∧
      (d ≠ 0 → p.header.totalDifficulty.toNat + d.toNat < 2 ^ 64 →
        p.header.totalDifficulty < b.header.totalDifficulty) := by
  rcases (C47_accept_rule c _ b headHash hash hh hb).1 hacc with h | ⟨-, h | ⟨p', hp', -, ⟨d, hd, htd⟩, -⟩⟩
  · exact absurd h hne
  · rw [hp] at h; cases h
  · rw [hp] at hp'; cases hp'
    refine ⟨d, hd, htd, fun h0 hlt => ?_⟩
    rw [UInt64.lt_iff_toNat_lt, htd, Nat.mod_eq_of_lt hlt]
    have : d.toNat ≠ 0 := fun h => h0 (UInt64.toNat_inj.1 h)
    omega

/-- **C91 is false of the code.** Whenever the hash of the parent's proof starts with a nonzero hexadecimal digit
(as fifteen in sixteen do), the block has the same total difficulty as its parent. -/
theorem C91_refuted {E : Env} (c : Chain E) (st : Storage E) (b p : Block E) (headHash hash : Bytes)
    (hh : HasHash c.head headHash) (hb : HasHash b hash) (hne : hash ≠ headHash)
    (hacc : (c.processBlock st b).1 = .ok ()) (hp : st.getBlock (parentID b) = some p) (bytes : Bytes)
    (hbytes : p.header.pow.bytes = .ok bytes) (hlen : (E.blake2b bytes).length = 32)
    (hbig : 0x0fffffffffffffff < hashPrefix (E.blake2b bytes)) :
    b.header.totalDifficulty = p.header.totalDifficulty := by
  obtain ⟨d, hd, htd, -⟩ := C91_grows_partial c st b p headHash hash hh hb hne hacc hp
  have : p.header.pow.toDifficulty E = .ok 0 := by
    unfold Proof.toDifficulty
    rw [hbytes]
    exact (C38_refuted_large _ hlen).2 hbig
  rw [this] at hd
  cases hd
  apply UInt64.toNat_inj.1
  rw [htd]
  have := p.header.totalDifficulty.toNat_lt
  show (_ + 0) % _ = _
  rw [Nat.add_zero, Nat.mod_eq_of_lt this]

/-- Testnet4 block 65,927, over a parent with the same proof and the same total difficulty, is accepted (by a
storage that returns nothing for the difficulty rule; otherwise C48 strikes). -/
example : ∃ (b p : Block Concrete.env) (c : Chain Concrete.env) (st : Storage Concrete.env), Vectors.block = some b ∧
    st.getBlock (parentID b) = some p ∧ b.header.totalDifficulty = p.header.totalDifficulty ∧
    (c.processBlock st b).1 = .ok () := by
  obtain ⟨b, hb, hv⟩ := C32_real_block
  have hread : Block.read Concrete.env Vectors.serialisedBlock = (.ok b, []) := by
    unfold Vectors.block at hb
    split at hb
    · rename_i x hx
      rw [hx]; cases hb; rfl
    · cases hb
  have h0 : b.header.pow.toDifficulty Concrete.env = .ok 0 := by
    have := (by decide +kernel : (match Vectors.block with
      | some b => b.header.pow.toDifficulty Concrete.env == .ok 0 | none => false) = true)
    rw [hb] at this
    simpa using this
  let p : Block Concrete.env := { b with header := { b.header with timestamp := ⟨b.header.timestamp.sec - 1, 0⟩ } }
  refine ⟨b, p, Chain.new (testnet1 _) (sqlStorage _), ⟨fun _ => some p, some p, fun _ _ => []⟩, hb, rfl, rfl, ?_⟩
  refine C48_unknown_parent_partial _ _ _ _ b hread _ (genesis_hash Concrete.env .testnet1) hv
    (.inr ⟨p, rfl, .inl ?_, ⟨0, h0, ?_⟩, rfl⟩)
  · show b.header.timestamp.sec - 1 < _; omega
  · show b.header.totalDifficulty.toNat = (b.header.totalDifficulty.toNat + 0) % 2 ^ 64
    rw [Nat.add_zero, Nat.mod_eq_of_lt (UInt64.toNat_lt _)]

end Gringo.Props
