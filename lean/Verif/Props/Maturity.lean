import Verif.Props.Gaps
/-
C147, C148: what accepted blocks do with outputs.
-/
set_option maxRecDepth 100000
namespace Gringo.Props
open Gringo.Spec

/-- The input names the output: the same features and the bytes of its commitment. -/
def Spends {E : Env} (i : Input) (o : Output E) : Prop := i.features = o.features ∧ i.commit = E.pointBytes o.commit

/-- The block spends an output of `p`. -/
def SpendsFrom {E : Env} (b p : Block E) (o : Output E) : Prop := o ∈ p.outputs ∧ ∃ i ∈ b.inputs, Spends i o

/-! ### C147: coinbase outputs mature -/

/-- **C147 is false of the code.** With any valid block that is accepted, and any output of any block, the same block
with one more input, which spends that output, is accepted too. The heights of the two blocks are not looked at, nor
the coinbase flag. -/
theorem C147_refuted {E : Env} (c : Chain E) (st : Storage E) (b p : Block E) (hv : b.validate = .ok ())
    (hacc : (c.processBlock st b).1 = .ok ()) (o : Output E) (ho : o ∈ p.outputs) :
    ∃ b' : Block E, b'.header = b.header ∧ b'.outputs = b.outputs ∧ b'.kernels = b.kernels ∧
      b'.inputs.Perm (⟨o.features, E.pointBytes o.commit⟩ :: b.inputs) ∧ SpendsFrom b' p o ∧
      b'.validate = .ok () ∧ (c.processBlock st b').1 = .ok () := by
  obtain ⟨l, hp, hl⟩ := sorted_exists (inputKey E) (⟨o.features, E.pointBytes o.commit⟩ :: b.inputs)
  obtain ⟨h1, h2⟩ := C90_refuted c st b hv hacc l hl
  exact ⟨{ b with inputs := l }, rfl, rfl, rfl, hp, ⟨ho, _, hp.mem_iff.2 (List.mem_cons_self ..), rfl, rfl⟩, h1, h2⟩

/-- In particular the block that comes next after `p` may spend the outputs of `p`, the coinbase output too, and be
accepted: it is one block higher, where a thousand are required. -/
theorem C147_refuted_next {E : Env} (c : Chain E) (blocks : List (Block E)) (hc : Consecutive blocks) (b p : Block E)
    (headHash hash : Bytes) (hh : HasHash c.head headHash) (hb : HasHash b hash) (hne : hash ≠ headHash)
    (hv : b.validate = .ok ()) (hacc : (c.processBlock (listStorage blocks) b).1 = .ok ())
    (hp : (listStorage blocks).getBlock (parentID b) = some p) (o : Output E) (ho : o ∈ p.outputs) :
    ∃ b' : Block E, SpendsFrom b' p o ∧ HasHash p b'.header.previous ∧
      b'.header.height.toNat = p.header.height.toNat + 1 ∧ ¬ p.header.height.toNat + 1000 ≤ b'.header.height.toNat ∧
      (c.processBlock (listStorage blocks) b').1 = .ok () := by
  obtain ⟨b', e1, -, -, -, h1, -, h2⟩ := C147_refuted c (listStorage blocks) b p hv hacc o ho
  obtain ⟨-, h3, h4, -⟩ := C88_linked_partial c blocks hc b p headHash hash hh hb hne hacc hp
  exact ⟨b', h1, e1 ▸ h3, e1 ▸ h4, by rw [e1]; omega, h2⟩

/-- The hash has a difficulty: it is long enough and not too small. -/
def hasDifficulty (K : Bytes) : Bool :=
  match difficultyFromHash K with
  | .ok _ => true
  | _ => false

theorem hasDifficulty_ok {K : Bytes} (h : hasDifficulty K = true) : ∃ d, difficultyFromHash K = .ok d := by
  unfold hasDifficulty at h
  split at h
  · rename_i d hd; exact ⟨d, hd⟩
  · cases h

theorem real_pow_difficulty :
    (Vectors.block.any fun b => hasDifficulty (Concrete.env.blake2b (powMessage b.header))) = true := by decide +kernel

/-- A storage with one block of height 0, and a block of height 1 that follows it, made by the node itself (a block from
the wire is refused, see C48): the hypotheses of `C147_refuted_next` and `C88_linked_partial` can be met. -/
theorem next_block : ∃ (E : Env) (c : Chain E) (p b : Block E) (headHash hash : Bytes), Consecutive [p] ∧
    HasHash c.head headHash ∧ HasHash b hash ∧ hash ≠ headHash ∧ b.validate = .ok () ∧
    (c.processBlock (listStorage [p]) b).1 = .ok () ∧ (listStorage [p]).getBlock (parentID b) = some p ∧
    p.outputs ≠ [] := by
  obtain ⟨b, hb, hv⟩ := C32_real_block
  have wf : WellFormedHeader b.header := by
    unfold Vectors.block at hb
    split at hb
    · rename_i x hx
      cases hb
      obtain ⟨⟨r1, h1⟩, -⟩ := block_read_ok hx
      exact (C13_decoded_shape _ _ _ _ h1).1
    · cases hb
  have hr := (C30_header_rule _ _ wf).1 ((C32_block_rule b).1 hv).1
  have hdiff := real_pow_difficulty
  rw [hb, Option.any_some] at hdiff
  obtain ⟨r, hr1, hr2⟩ := packed_nonempty b.header wf
  obtain ⟨d, hd⟩ := hasDifficulty_ok hdiff
  generalize hK : Concrete.env.blake2b (powMessage b.header) = K at hd
  have hlen : K.length = 32 := by rw [← hK]; exact Curve.hashLen.1 _
  have htd : b.header.pow.toDifficulty (constHash Concrete.env K) = .ok d := by
    unfold Proof.toDifficulty Proof.bytes
    rw [hr1]
    exact hd
  have hhash : ∀ h : BlockHeader, h.pow = b.header.pow → HasHash (inConstHash K b h) K := by
    intro h hp
    unfold HasHash Block.hash BlockHeader.hash
    show (h.pow.proofBytes >>= _) = _
    rw [hp, hr1]
    exact congrArg Out.ok (if_neg (e := K) (t := K.map (· + 1)) hr2)
  let h0 : BlockHeader := { b.header with height := 0, timestamp := ⟨b.header.timestamp.sec - 1, 0⟩ }
  let h1 : BlockHeader := { b.header with
    version := 1, height := 1, previous := K, difficulty := 0xffffffffffffffff
    totalDifficulty := b.header.totalDifficulty + d }
  have hvalid : (inConstHash K b h1).validate = .ok () := by
    rw [← hK]
    exact mined b hv wf _ { wf with previous := hlen } (.inl ⟨by show (1 : Nat) < 95000; decide, rfl⟩) hr.2.1 rfl rfl
  have hhead : HasHash (testnet1 (constHash Concrete.env K)) (K.map (· + 1)) :=
    genesis_hash (constHash Concrete.env K) .testnet1
  have hne : K ≠ K.map (· + 1) := by
    cases K with
    | nil => simp at hlen
    | cons k t =>
      intro h
      have : k = k + 1 := (List.cons.inj h).1
      revert this
      have : ∀ n : Fin 256, UInt8.ofFin n ≠ UInt8.ofFin n + 1 := by decide +kernel
      exact this k.toFin
  have hget : (listStorage [inConstHash K b h0]).getBlock (parentID (inConstHash K b h1)) = some (inConstHash K b h0) := by
    have hm : Matches (parentID (inConstHash K b h1)) (inConstHash K b h0) :=
      ⟨hhash h0 rfl, by show (0 : UInt64) = 1 - 1; decide⟩
    unfold listStorage
    simp only
    rw [List.find?_cons_of_pos (by simpa using hm)]
  refine ⟨constHash Concrete.env K, ⟨testnet1 _, testnet1 _, 0, 0⟩, inConstHash K b h0, inConstHash K b h1, K.map (· + 1), K,
    ⟨by show (1 : Nat) < 2 ^ 64; decide, ?_⟩, hhead, hhash _ rfl, hne, hvalid, ?_, hget, ?_⟩
  · intro i x hx
    cases i with
    | zero => cases hx; rfl
    | succ i => simp at hx
  · refine (C47_accept_rule _ _ _ _ _ hhead (hhash h1 rfl)).2 (.inr ⟨hvalid, .inr ⟨_, hget, .inl ?_, ⟨d, htd, ?_⟩, ?_⟩⟩)
    · show b.header.timestamp.sec - 1 < b.header.timestamp.sec; omega
    · show (b.header.totalDifficulty + d).toNat = _
      exact UInt64.toNat_add _ _
    · obtain ⟨nd, h, -⟩ := C35_next_difficulty ((difficultyWindow (listStorage [inConstHash K b h0]) (inConstHash K b h1)).map (·.header))
      refine ⟨nd, h, ?_⟩
      have := nd.toNat_lt
      show _ ≤ 2 ^ 64 - 1
      omega
  · intro h
    exact ((C32_block_rule b).1 hv).2.1 (List.map_eq_nil_iff.1 h)

/-- So a block at height 1 spends an output of the block at height 0, and is accepted. -/
example : ∃ (E : Env) (c : Chain E) (p b : Block E) (o : Output E), SpendsFrom b p o ∧ p.header.height = 0 ∧
    b.header.height.toNat = 1 ∧ (c.processBlock (listStorage [p]) b).1 = .ok () := by
  obtain ⟨E, c, p, b, hh, h, hc, h1, h2, h3, h4, h5, h6, h7⟩ := next_block
  obtain ⟨o, ho⟩ := List.exists_mem_of_ne_nil _ h7
  obtain ⟨b', g1, -, g2, -, g3⟩ := C147_refuted_next c [p] hc b p hh h h1 h2 h3 h4 h5 h6 o ho
  have := hc.2 0 p rfl
  exact ⟨E, c, p, b', o, g1, this, by rw [g2, this]; rfl, g3⟩

/-- **C147, the part that holds**: a block has at most one output that has to mature, and an input that spends it has
the coinbase flag as well: so what would have to be checked can be seen in the block that spends. -/
theorem C147_marked_partial {E : Env} (p : Block E) (hv : p.validate = .ok ()) :
    (p.outputs.filter fun o => isCoinbase o.features).length ≤ 1 ∧
    ∀ (b : Block E) (o : Output E), SpendsFrom b p o → isCoinbase o.features = true →
      ∃ i ∈ b.inputs, Spends i o ∧ isCoinbase i.features = true := by
  refine ⟨(C87_at_most_one_partial p hv).1, ?_⟩
  rintro b o ⟨-, i, hi, hs⟩ hf
  exact ⟨i, hi, hs, by rw [hs.1]; exact hf⟩

/-- The real block can spend all of its own outputs, one after the other, and is accepted by the shipped chain. -/
example : ∃ (c : Chain Concrete.env) (b : Block Concrete.env) (o : Output Concrete.env), o ∈ b.outputs ∧
    SpendsFrom b b o ∧ (c.processBlock (sqlStorage _) b).1 = .ok () ∧ b.validate = .ok () := by
  obtain ⟨b, hb, hv⟩ := C32_real_block
  have hread : Block.read Concrete.env Vectors.serialisedBlock = (.ok b, []) := by
    unfold Vectors.block at hb
    split at hb
    · rename_i x hx
      rw [hx]; cases hb; rfl
    · cases hb
  obtain ⟨o, ho⟩ := List.exists_mem_of_ne_nil _ ((C32_block_rule b).1 hv).2.1
  obtain ⟨b', -, e, -, -, h1, h2, h3⟩ := C147_refuted (Chain.new (testnet1 _) (sqlStorage _)) (sqlStorage _) b b hv
    (C48_unknown_parent_partial _ _ _ _ b hread _ (genesis_hash Concrete.env .testnet1) hv (.inl rfl)) o ho
  exact ⟨_, b', o, by rw [e]; exact ho, ⟨by rw [e]; exact ho, h1.2⟩, h3, h2⟩

/-! ### C148: an output exists once -/

/-- **C148, the part that holds**: two outputs of a valid block with the same commitment are not both coinbase
outputs. -/
theorem C148_coinbase_partial {E : Env} (b : Block E) (h : b.validate = .ok ()) :
    b.outputs.Pairwise fun o o' => o.commit = o'.commit → ¬ (isCoinbase o.features = true ∧ isCoinbase o'.features = true) := by
  have h7 := (C87_at_most_one_partial b h).1
  rw [List.pairwise_iff_forall_sublist]
  rintro o o' hs - ⟨h1, h2⟩
  have := (hs.filter fun o => isCoinbase o.features).length_le
  simp [h1, h2] at this
  omega

/-- **C148 is false of the code.** With any valid block that is accepted, and any outputs of any valid blocks (this one,
or others that are stored), the same block with all these outputs added, without their coinbase flag, is accepted too:
as often as one likes. -/
theorem C148_refuted {E : Env} (c : Chain E) (st : Storage E) (b p : Block E) (hv : b.validate = .ok ())
    (hacc : (c.processBlock st b).1 = .ok ()) (hpv : p.validate = .ok ()) (o : Output E) (ho : o ∈ p.outputs) (n : Nat) :
    ∃ b' : Block E, b'.header = b.header ∧ b'.inputs = b.inputs ∧ b'.kernels = b.kernels ∧
      b'.outputs.Perm (List.replicate n { o with features := 0 } ++ b.outputs) ∧
      n ≤ (b'.outputs.filter fun x => decide (x.commit = o.commit)).length ∧
      b'.validate = .ok () ∧ (c.processBlock st b').1 = .ok () := by
  obtain ⟨os, hp, h⟩ := C84_add_outputs b hv (List.replicate n { o with features := 0 })
    (by intro x hx; obtain rfl := List.eq_of_mem_replicate hx; rfl)
    (by intro x hx; obtain rfl := List.eq_of_mem_replicate hx; exact C84_range_partial p hpv o ho)
  refine ⟨{ b with outputs := os }, rfl, rfl, rfl, hp, ?_, h, accepted_body c st b _ rfl h hacc⟩
  show n ≤ (os.filter _).length
  rw [(hp.filter _).length_eq, List.filter_append, List.length_append]
  have : (List.replicate n { o with features := (0 : UInt8) }).filter (fun x => decide (x.commit = o.commit)) =
      List.replicate n { o with features := 0 } := by
    rw [List.filter_eq_self]
    intro x hx
    obtain rfl := List.eq_of_mem_replicate hx
    simp
  rw [this, List.length_replicate]
  omega

/-- The real block with a thousand further outputs of the commitment it has already. -/
example : ∃ (c : Chain Concrete.env) (b : Block Concrete.env) (o : Output Concrete.env), o ∈ b.outputs ∧
    1000 ≤ (b.outputs.filter fun x => decide (x.commit = o.commit)).length ∧
    (c.processBlock (sqlStorage _) b).1 = .ok () ∧ b.validate = .ok () := by
  obtain ⟨b, hb, hv⟩ := C32_real_block
  have hread : Block.read Concrete.env Vectors.serialisedBlock = (.ok b, []) := by
    unfold Vectors.block at hb
    split at hb
    · rename_i x hx
      rw [hx]; cases hb; rfl
    · cases hb
  obtain ⟨o, ho⟩ := List.exists_mem_of_ne_nil _ ((C32_block_rule b).1 hv).2.1
  obtain ⟨b', -, -, -, e, h1, h2, h3⟩ := C148_refuted (Chain.new (testnet1 _) (sqlStorage _)) (sqlStorage _) b b hv
    (C48_unknown_parent_partial _ _ _ _ b hread _ (genesis_hash Concrete.env .testnet1) hv (.inl rfl)) hv o ho 1000
  exact ⟨_, b', o, e.mem_iff.2 (List.mem_append_right _ ho), h1, h3, h2⟩

end Gringo.Props
