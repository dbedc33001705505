import Verif.Props.Delivery
import Verif.Props.Validity
/-
C98, C99: the weight of blocks and their size on the wire.
-/
set_option maxRecDepth 100000
namespace Gringo.Props
open Gringo.Spec Gringo.P2P

/-- The weight of a block as the constants of consensus/consensus.go:77-87 mean it: 1 for an input, 10 for an output,
2 for a kernel. The limit is 80 000. -/
def weight {E : Env} (b : Block E) : Nat := b.inputs.length + 10 * b.outputs.length + 2 * b.kernels.length

/-- **C98, the part that holds**: a block that was decoded has a weight of at most 13 000 000, from the limits on
the lists. The property asks for 80 000, which is false: see `C98_refuted`. -/
theorem C98_weight_partial {E : Env} (s r : Bytes) (b : Block E) (h : Block.read E s = (.ok b, r)) :
    weight b ≤ 13000000 := by
  obtain ⟨h1, h2, h3⟩ := C16_decoded_counts E s r b h
  unfold weight
  omega

/-- **C98 is false of the code.** Replace the inputs of any valid block by `n` times the same arbitrary input: the
block is still valid, whatever `n`, so there is no limit on the weight of valid blocks. -/
theorem C98_refuted {E : Env} (b : Block E) (h : b.validate = .ok ()) (i : Input) (n : Nat) :
    ({ b with inputs := List.replicate n i } : Block E).validate = .ok () ∧
    n ≤ weight ({ b with inputs := List.replicate n i } : Block E) := by
  refine ⟨C34_inputs_unchecked b h _ ?_, ?_⟩
  · exact List.pairwise_replicate.2 (.inr (by simp [bytesLt_irrefl]))
  · simp only [weight, List.length_replicate]
    omega

/-- The block of Testnet4 in the repository's tests with 80 001 inputs. -/
example : ∃ b : Block Concrete.env, b.validate = .ok () ∧ 80000 < weight b := by
  obtain ⟨b, -, hb⟩ := C32_real_block
  obtain ⟨h1, h2⟩ := C98_refuted b hb ⟨0, List.replicate 33 9⟩ 80001
  exact ⟨_, h1, by omega⟩

/-! ### Size -/

theorem inputs_length : ∀ (l : List Input), InputsOK l → (l.flatMap Input.bytes).length = 34 * l.length
  | [], _ => rfl
  | i :: t, h => by
    rw [List.flatMap_cons, List.length_append, (C28_input i (h i (List.mem_cons_self ..))).1,
      inputs_length t (fun x hx => h x (List.mem_cons_of_mem _ hx)), List.length_cons]
    omega

theorem outputs_length {E : Env} (P : Point → Prop) (Q : E.Prf → Prop) (hE : PointCodec E P) (hQ : PrfCodec E Q) :
    ∀ (l : List (Output E)), OutputsOK P Q l →
    (l.flatMap Output.bytes).length = (l.map fun o => 42 + (E.prfBytes o.proof).length).sum
  | [], _ => rfl
  | o :: t, h => by
    obtain ⟨h1, h2, h3⟩ := h o (List.mem_cons_self ..)
    rw [List.flatMap_cons, List.length_append, (C28_output E P Q hE hQ o h1 h2 h3).1,
      outputs_length P Q hE hQ t (fun x hx => h x (List.mem_cons_of_mem _ hx)), List.map_cons, List.sum_cons]

/-- **C99, the size.** A well-formed block takes 271 bytes, its packed proof of work, 34 bytes for every input, 42
bytes and its range proof for every output, and 114 bytes for every kernel. -/
theorem C99_size (E : Env) (P : Point → Prop) (Q : E.Prf → Prop) (hE : PointCodec E P) (hQ : PrfCodec E Q)
    (hS : SortOK E) (hmem : 336 ≤ E.maxAlloc) (b : Block E) (wf : WellFormedHeader b.header)
    (hi : InputsOK b.inputs) (ho : OutputsOK P Q b.outputs) (hk : KernelsOK P b.kernels) :
    ∃ v, b.bytes = .ok v ∧ v.length = 271 + (42 * b.header.pow.edgeBits.toNat + 7) / 8 + 34 * b.inputs.length +
      (b.outputs.map fun o => 42 + (E.prfBytes o.proof).length).sum + 114 * b.kernels.length := by
  obtain ⟨w, hw, hwl, -⟩ := C12_header_roundtrip E hmem b.header wf
  refine ⟨_, by simp only [Block.bytes, Block.bytesAndState, hw, Out.bind_ok, Out.pure_def]; rfl, ?_⟩
  have pk : b.sorted.kernels.Perm b.kernels := hS.perm (kernelKey E) b.kernels
  have pi : b.sorted.inputs.Perm b.inputs := hS.perm (inputKey E) b.inputs
  have po : b.sorted.outputs.Perm b.outputs := hS.perm outputKey b.outputs
  have e1 := kernels_length E P hE b.sorted.kernels fun k h => hk k (pk.mem_iff.1 h)
  have e2 := inputs_length b.sorted.inputs fun k h => hi k (pi.mem_iff.1 h)
  have e3 := outputs_length P Q hE hQ b.sorted.outputs fun k h => ho k (po.mem_iff.1 h)
  rw [(po.map _).sum_nat] at e3
  rw [pk.length_eq] at e1
  rw [pi.length_eq] at e2
  simp only [List.length_append, e1, e2, e3, hwl, be64_length]
  omega

theorem sum_le {α : Type} (f : α → Nat) (c : Nat) : ∀ (l : List α), (∀ x ∈ l, f x ≤ c) → (l.map f).sum ≤ c * l.length
  | [], _ => by simp
  | x :: t, h => by
    have := sum_le f c t (fun y hy => h y (List.mem_cons_of_mem _ hy))
    have := h x (List.mem_cons_self ..)
    simp only [List.map_cons, List.sum_cons, List.length_cons, Nat.mul_add]
    omega

/-- **C99, the part that holds**: a block of legal weight whose range proofs have at most 2400 bytes each (a single
Bulletproof has 675) fits into a message: it is written, and the other side gets it. -/
theorem C99_legal_fits_partial (E : Env) (P : Point → Prop) (Q : E.Prf → Prop) (hE : PointCodec E P)
    (hQ : PrfCodec E Q) (hS : SortOK E) (hmem : 1000000 * (104 + E.outputSize) ≤ E.maxAlloc) (b : Block E)
    (wf : WellFormedHeader b.header) (hi : InputsOK b.inputs) (ho : OutputsOK P Q b.outputs)
    (hk : KernelsOK P b.kernels) (hw : weight b ≤ 80000) (hp : ∀ o ∈ b.outputs, (E.prfBytes o.proof).length ≤ 2400) :
    ∃ w b', (Message.block b).frame = .ok w ∧ (readHandler E w).dispatched = [.block b'] ∧
      ArrivesAs E (.block b) (.block b') := by
  unfold weight at hw
  obtain ⟨v, hv, hl⟩ := C99_size E P Q hE hQ hS (by omega) b wf hi ho hk
  have hs := sum_le (fun o : Output E => 42 + (E.prfBytes o.proof).length) 2442 b.outputs
    (fun o ho => by have := hp o ho; omega)
  have he : b.header.pow.edgeBits.toNat ≤ 64 := wf.pow.2.1
  obtain ⟨ws, h1, h2, -⟩ := C81_delivered_partial E P Q hE hQ hS hmem [.block b]
    (by intro m hm; rw [List.mem_singleton] at hm; subst hm
        exact ⟨wf, hi, ho, hk, by omega, by omega, by omega⟩)
    (by intro m hm v' hv'; rw [List.mem_singleton] at hm; subst hm
        have hv'' : b.bytes = .ok v' := hv'
        rw [hv] at hv''; cases hv''; omega)
  cases h1 with
  | cons h1 h1' =>
    rename_i wr _
    cases h1'
    simp only [List.flatten_cons, List.flatten_nil, List.append_nil] at h2
    generalize hds : (readHandler E wr).dispatched = ds at h2
    cases h2 with
    | cons h2 h2' =>
      cases h2'
      have h2c := h2
      cases h2 with
      | block m m' e1 e2 e3 e4 => exact ⟨wr, m', h1, hds, h2c⟩

/-- **C99 is false of the code.** The decoder accepts range proofs of 5134 bytes. A block of legal weight with 4000
outputs of such proofs is written, and the other side hangs up on it. -/
theorem C99_refuted (E : Env) (P : Point → Prop) (Q : E.Prf → Prop) (hE : PointCodec E P)
    (hQ : PrfCodec E Q) (hS : SortOK E) (hmem : 20000000 ≤ E.maxAlloc) (b : Block E)
    (wf : WellFormedHeader b.header) (o : Output E) (hP : P o.commit) (hq : Q o.proof)
    (hlen : (E.prfBytes o.proof).length = 5134) (hi : b.inputs = []) (k : TxKernel) (hkx : P k.excess)
    (hks : k.excessSig.length = 64) (hk : b.kernels = [k]) (ho : b.outputs = List.replicate 4000 o) :
    weight b ≤ 80000 ∧ ∃ w, (Message.block b).frame = .ok w ∧ (readHandler E w).dispatched = [] ∧
      (readHandler E w).ending = .exit (some "too big message size") := by
  refine ⟨by simp [weight, hi, hk, ho], ?_⟩
  have hO : OutputsOK P Q b.outputs := by
    intro x hx
    rw [ho] at hx
    rw [(List.mem_replicate.1 hx).2]
    exact ⟨hP, hq, by omega⟩
  obtain ⟨v, hv, hl⟩ := C99_size E P Q hE hQ hS (by omega) b wf (by rw [hi]; simp [InputsOK]) hO
    (by rw [hk]; intro x hx; rw [List.mem_singleton] at hx; subst hx; exact ⟨hkx, hks⟩)
  have he : b.header.pow.edgeBits.toNat ≤ 64 := wf.pow.2.1
  have hsum : (b.outputs.map fun o => 42 + (E.prfBytes o.proof).length).sum = 4000 * 5176 := by
    rw [ho, List.map_replicate, hlen, List.sum_replicate_nat]
  rw [hsum, hi, hk, List.length_nil, List.length_singleton] at hl
  obtain ⟨w, h1, h2, h3⟩ := C81_refuted E hmem [] (.block b) v hv (by omega) (by omega) []
  simp only [streamOf, List.flatMap_nil, List.nil_append, List.append_nil] at h2 h3
  exact ⟨w, h1, h2, h3⟩

/-- An output with a long range proof. -/
def longProof : Output Toy.env := { features := 0, commit := ⟨7, 1⟩, proof := List.replicate 5134 3 }

/-- `C99_refuted`: 4000 of them. -/
example : ∃ (b : Block Toy.env) (w : Bytes), weight b ≤ 80000 ∧ (Message.block b).frame = .ok w ∧
    (readHandler Toy.env w).dispatched = [] := by
  obtain ⟨h1, w, h2, h3, -⟩ := C99_refuted Toy.env Toy.OKPoint (fun _ => True) Toy.pointCodec Toy.prfCodec Toy.sortOK
    (by norm_num) { sampleBlock with
      inputs := [], outputs := List.replicate 4000 longProof,
      kernels := [{ features := 1, fee := 3, lockHeight := 4, excess := ⟨6, 0⟩, excessSig := List.replicate 64 8 }] }
    sampleHeader_wf longProof ⟨by norm_num [longProof], by norm_num [longProof]⟩ trivial List.length_replicate rfl _
    (by exact ⟨by norm_num, by norm_num⟩) rfl rfl rfl
  exact ⟨_, w, h1, h2, h3⟩

/-- `C99_legal_fits_partial`: the sample block. -/
example : ∃ w b', (Message.block sampleBlock).frame = .ok w ∧ (readHandler Toy.env w).dispatched = [.block b'] := by
  obtain ⟨wf, hi, ho, hk, -⟩ := sampleBlock_deliverable
  obtain ⟨w, b', h1, h2, -⟩ := C99_legal_fits_partial Toy.env Toy.OKPoint (fun _ => True) Toy.pointCodec Toy.prfCodec
    Toy.sortOK (by norm_num) sampleBlock wf hi ho hk (by decide)
    (by intro o ho; simp [sampleBlock] at ho; subst ho; simp)
  exact ⟨w, b', h1, h2⟩

end Gringo.Props
