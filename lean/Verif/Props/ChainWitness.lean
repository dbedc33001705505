import Verif.Props.Genesis
import Verif.Spec.Toy
/-
Concrete cases for the theorems about the chain (C46-C53).
-/
set_option maxRecDepth 100000
namespace Gringo.Props
open Gringo.Spec

/-- What the kernel evaluates for the real block: its hash exists and is not that of Testnet1, and its proof
has a difficulty. -/
theorem real_block_facts :
    (match Vectors.block with
     | some b => (match b.hash, (testnet1 Concrete.env).hash, b.header.pow.toDifficulty Concrete.env with
        | .ok x, .ok y, .ok _ => x != y
        | _, _, _ => false)
     | none => false) = true := by decide +kernel

/-- **C48 fails on a real block.** Testnet4 block 65,927 as in the repository's test, with a parent that is
earlier and has the right total difficulty: the block is valid, and it is rejected. -/
theorem C48_real_block : ∃ (b p : Block Concrete.env) (c : Chain Concrete.env) (st : Storage Concrete.env),
    Block.read Concrete.env Vectors.serialisedBlock = (.ok b, []) ∧ b.validate = .ok () ∧
    st.getBlock (parentID b) = some p ∧ Later b.header.timestamp p.header.timestamp ∧
    (∃ d : UInt64, p.header.pow.toDifficulty Concrete.env = .ok d ∧
      b.header.totalDifficulty = p.header.totalDifficulty + d) ∧
    (c.processBlock st b).1 ≠ .ok () := by
  obtain ⟨b, hb, hv⟩ := C32_real_block
  have hf := real_block_facts
  rw [hb] at hf
  have hread : Block.read Concrete.env Vectors.serialisedBlock = (.ok b, []) := by
    unfold Vectors.block at hb
    split at hb
    · rename_i x hx
      rw [hx]; cases hb; rfl
    · cases hb
  cases h1 : b.hash with
  | ok x =>
    cases h2 : (testnet1 Concrete.env).hash with
    | ok y =>
      cases h3 : b.header.pow.toDifficulty Concrete.env with
      | ok d =>
        simp only [h1, h2, h3, bne_iff_ne, ne_eq] at hf
        let p : Block Concrete.env := { b with header := { b.header with
          height := b.header.height - 1
          timestamp := ⟨b.header.timestamp.sec - 1, 0⟩
          totalDifficulty := b.header.totalDifficulty - d } }
        let st : Storage Concrete.env := ⟨fun _ => some p, some p, fun _ _ => [p]⟩
        refine ⟨b, p, Chain.new (testnet1 _) (sqlStorage _), st, hread, hv, rfl, ?_, ⟨d, h3, ?_⟩, ?_⟩
        · left; show b.header.timestamp.sec - 1 < _; omega
        · show _ = b.header.totalDifficulty - d + d
          rw [UInt64.sub_add_cancel]
        · exact C48_refuted _ st _ _ b p hread y x h2 h1 hf rfl (by simp [difficultyWindow, st])
      | _ => simp [h1, h2, h3] at hf
    | _ => simp [h1, h2] at hf
  | _ => simp [h1] at hf

/-- The parent in the toy example. -/
def toyParent : Block Toy.env := { sampleBlock with header := { sampleHeader with height := 0 } }

/-- The hash of everything with the proof of `sampleHeader`. -/
def toyHash : Bytes := match sampleHeader.hash Toy.env with | .ok h => h | _ => []

theorem toyHash_ok : sampleHeader.hash Toy.env = .ok toyHash ∧ toyHash.length = 32 ∧
    toyHash ≠ Toy.env.blake2b [] := by
  have h := (by decide +kernel : (match sampleHeader.hash Toy.env with
    | .ok h => h.length == 32 && h != Toy.env.blake2b [] | _ => false) = true)
  unfold toyHash
  cases hs : sampleHeader.hash Toy.env with
  | ok x => rw [hs] at h; simpa using h
  | _ => rw [hs] at h; simp at h

/-- The hypotheses of `C48_refuted_list` can be met: a storage holding one block of height 0, and a wire
block of height 1 that refers to it. -/
example : ∃ (wire : Bytes) (b p : Block Toy.env) (headHash hash : Bytes),
    Consecutive [toyParent] ∧ Block.read Toy.env wire = (.ok b, []) ∧ HasHash (testnet1 Toy.env) headHash ∧
    HasHash b hash ∧ hash ≠ headHash ∧ (listStorage [toyParent]).getBlock (parentID b) = some p := by
  obtain ⟨t1, t2, t3⟩ := toyHash_ok
  have wf : WellFormedHeader { sampleHeader with height := 1, previous := toyHash } :=
    { sampleHeader_wf with previous := t2 }
  obtain ⟨v, b', h1, h2, h3, -⟩ := C14_block_roundtrip Toy.env Toy.OKPoint (fun _ => True)
    Toy.pointCodec Toy.prfCodec Toy.sortOK (by norm_num) (by norm_num)
    { sampleBlock with header := { sampleHeader with height := 1, previous := toyHash } } wf
    (by intro i hi; simp [sampleBlock] at hi; rcases hi with rfl | rfl <;> rfl)
    (by intro o ho; simp [sampleBlock] at ho; subst ho; exact ⟨⟨by norm_num, by norm_num⟩, trivial, by simp⟩)
    (by intro k hk; simp [sampleBlock] at hk; subst hk; exact ⟨⟨by norm_num, by norm_num⟩, rfl⟩)
    (by simp [sampleBlock]) (by simp [sampleBlock]) (by simp [sampleBlock])
  have hread : Block.read Toy.env v = (.ok b', []) := by simpa using h2 []
  refine ⟨v, b', toyParent, _, toyHash, ⟨by simp, ?_⟩, hread, genesis_hash Toy.env .testnet1, ?_, t3, ?_⟩
  · intro i b hi
    cases i with
    | zero => simp at hi; subst hi; rfl
    | succ i => simp at hi
  · show b'.header.hash Toy.env = _
    rw [h3]; exact t1
  · have hm : Matches (parentID b') toyParent := by
      refine ⟨?_, ?_⟩
      · show toyParent.header.hash Toy.env = .ok b'.header.previous
        rw [h3]; exact t1
      · show toyParent.header.height = b'.header.height - 1
        rw [h3]; rfl
    simp [listStorage, hm]

/-- The genesis block of Testnet1 is not valid, whatever the time is. -/
theorem testnet1_invalid (E : Env) : ∃ e, (testnet1 E).validate = .err e := by
  have hv : validateBlockVersion (testnet1 E).header.height (testnet1 E).header.version = true := rfl
  unfold Block.validate BlockHeader.validate
  rw [if_neg (by simp [hv])]
  split
  · exact ⟨_, rfl⟩
  · exact ⟨_, rfl⟩

/-- **C51, the node as built by cmd/node.** Validating the fresh Testnet1 chain of the node program reports
a broken chain (unless the hash of the empty string is 32 times 0xff). -/
theorem C51_refuted_fresh (E : Env) (h : E.blake2b [] ≠ List.replicate 32 0xff) (n : Nat) :
    (Chain.new (testnet1 E) (sqlStorage E)).validate (sqlStorage E) (n + 1) =
      some (.err "invalid previous hash. blockchain integrity is broken") := by
  obtain ⟨e, he⟩ := testnet1_invalid E
  have hg : (testnet1 E).hash = .ok (E.blake2b []) := genesis_hash E .testnet1
  have hp : (testnet1 E).header.previous ≠ E.blake2b [] := fun h' => h h'.symm
  have hs : Chain.new (testnet1 E) (sqlStorage E) =
      ⟨testnet1 E, testnet1 E, (testnet1 E).header.height, (testnet1 E).header.totalDifficulty⟩ := rfl
  rw [hs]
  simp only [Chain.validate, Chain.validateLoop, hg, he]
  rw [if_neg hp]
  rfl

/-- It holds for the real hash function. -/
example : Concrete.env.blake2b [] ≠ List.replicate 32 0xff := by decide +kernel

/-- A cyclic storage for `C51_refuted_diverges`, with the real hash function. -/
example (n : Nat) : (Chain.new (testnet1 Concrete.env) ⟨fun _ => some (testnet1 _), none, fun _ _ => []⟩).validate
    ⟨fun _ => some (testnet1 _), none, fun _ _ => []⟩ n = none := by
  obtain ⟨e, he⟩ := testnet1_invalid Concrete.env
  exact C51_refuted_diverges _ _ (genesis_hash Concrete.env .testnet1) e he
    (fun h => (by decide +kernel : Concrete.env.blake2b [] ≠ List.replicate 32 0xff) h.symm)
    (by show List.replicate 32 _ ≠ _; decide) _ rfl n

/-- A valid head for `C51_refuted_misses`: the real block, over a storage in which its predecessor is an
invalid block. -/
example : ∃ c : Chain Concrete.env, (∃ e, (testnet1 Concrete.env).validate = .err e) ∧
    c.validate ⟨fun _ => some (testnet1 _), none, fun _ _ => []⟩ 1 = some (.ok ()) := by
  obtain ⟨b, -, hv⟩ := C32_real_block
  exact ⟨⟨testnet1 _, b, 0, 0⟩, testnet1_invalid _,
    C51_refuted_misses _ _ (genesis_hash Concrete.env .testnet1) hv _ 0⟩

/-- `C51_terminates_partial` applies to a chain of two blocks of which the first is stored. -/
example : (Chain.mk (testnet1 Toy.env) { sampleBlock with header := { sampleHeader with previous := toyHash } }
    42 0).validate (listStorage [toyParent]) 43 ≠ none := by
  obtain ⟨t1, t2, -⟩ := toyHash_ok
  have t4 : toyHash ≠ List.replicate 32 1 := by decide +kernel
  refine C51_terminates_partial _ _ ?_
  have hfind : ∀ id b, (listStorage [toyParent]).getBlock id = some b → b = toyParent := by
    intro id b h
    have h : [toyParent].find? (fun b => decide (Matches id b)) = some b := h
    exact List.mem_singleton.1 (List.mem_of_find?_eq_some h)
  rintro b p (rfl | ⟨id, hid⟩) hp
  · rw [hfind _ _ hp]; decide
  · have e := hfind _ _ hid
    subst e
    exfalso
    have hp' : [toyParent].find? (fun b => decide (Matches
      { hash := some toyParent.header.previous, height := none } b)) = some p := hp
    have hm := List.find?_some hp'
    simp only [decide_eq_true_eq] at hm
    rw [hfind _ _ hp] at hm
    have h1 : sampleHeader.hash Toy.env = .ok (List.replicate 32 1) := hm.1
    rw [t1, Out.ok.injEq] at h1
    exact t4 h1

/-- `C50_following` with a locator of two hashes, the first of them unknown. -/
example (c : Chain Toy.env) (hh : HasHash c.head (Toy.env.blake2b [])) :
    c.getBlockHeaders (listStorage [toyParent, sampleBlock]) ⟨[[], toyHash]⟩ = .ok [sampleHeader] := by
  obtain ⟨t1, t2, t3⟩ := toyHash_ok
  refine C50_following c [] [sampleBlock] toyParent _ _ toyHash hh t1 (by simp) [[]] [] rfl t3 ?_
  intro h' hm
  simp only [List.mem_singleton] at hm
  subst hm
  refine ⟨by intro h; have := congrArg List.length h; simp [Toy.blake2b, be_length] at this, ?_⟩
  intro b hb hc
  have : b.hash = .ok toyHash := by
    simp at hb
    rcases hb with rfl | rfl <;> exact t1
  rw [HasHash, this, Out.ok.injEq] at hc
  rw [hc] at t2
  simp at t2

end Gringo.Props
