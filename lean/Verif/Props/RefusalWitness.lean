import Verif.Props.Refusal
import Verif.Curve.Instance
/-
C112: a case in which the process crashes.
-/
set_option maxRecDepth 100000
namespace Gringo.Props
open Gringo.Spec

/-- A hash function of 32 bytes that maps one proof of work to zeros and everything else like BLAKE2b. -/
abbrev unluckyEnv : Env :=
  { Concrete.env with
    blake2b := fun x => if x = [1, 0, 0, 0, 0, 0, 0] then List.replicate 32 0 else Concrete.env.blake2b x }

theorem unlucky_hashLen : HashLen unluckyEnv where
  length b := by
    show (if b = [1, 0, 0, 0, 0, 0, 0] then List.replicate 32 0 else Concrete.env.blake2b b).length = 32
    split
    · simp
    · exact Curve.hashLen.length b

theorem unlucky_same {x : Bytes} (h : x.length ≠ 7) : unluckyEnv.blake2b x = Concrete.env.blake2b x :=
  if_neg fun e => h (by rw [e]; rfl)

/-- The two blocks have the same parts. -/
def sameParts (b : Block Concrete.env) (b' : Block unluckyEnv) : Bool :=
  b.header == b'.header && b.inputs == b'.inputs && b.kernels == b'.kernels &&
  b.outputs.map (fun o => (o.features, o.commit)) == b'.outputs.map (fun o => (o.features, o.commit))

/-- Reading the real block does not depend on the hash function. -/
theorem unlucky_read :
    (match Block.read Concrete.env Vectors.serialisedBlock, Block.read unluckyEnv Vectors.serialisedBlock with
     | (.ok b, []), (.ok b', []) => sameParts b b'
     | _, _ => false) = true := by decide +kernel

/-- What the kernel evaluates for the real block. -/
theorem unlucky_facts :
    (match Vectors.block with
     | some b => b.inputs.all (fun i => i.commit.length == 33) &&
        b.outputs.all (fun o => (Concrete.pointBytes o.commit).length == 33) &&
        decide (62135596800 < b.header.timestamp.sec) && b.header.pow.edgeBits == 29
     | _ => false) = true := by decide +kernel


/-- Where no hashed text has seven bytes, validity is the same. -/
theorem unlucky_valid (b : Block Concrete.env) (b' : Block unluckyEnv) (wf : WellFormedHeader b.header)
    (hs : sameParts b b' = true) (h1 : ∀ i ∈ b.inputs, i.commit.length = 33)
    (h2 : ∀ o ∈ b.outputs, (Concrete.pointBytes o.commit).length = 33) (hv : b.validate = .ok ()) : b'.validate = .ok () := by
  have order : ∀ {α : Type} {l : List α} {k k' : α → Bytes}, InOrder k l → (∀ x ∈ l, k' x = k x) → InOrder k' l := by
    intro α l k k' h e
    unfold InOrder at h ⊢
    refine h.imp_of_mem fun {a b} ha hb hab => ?_
    rw [e a ha, e b hb]
    exact hab
  simp only [sameParts, Bool.and_eq_true, beq_iff_eq] at hs
  obtain ⟨⟨⟨e1, e2⟩, e3⟩, e4⟩ := hs
  rw [C32_block_rule] at hv ⊢
  obtain ⟨g1, g2, g3, g4, g5, g6, g7, g8, g9, g10⟩ := hv
  rw [← e1, ← e2, ← e3]
  refine ⟨?_, ?_, g3, order g4 fun i hi => ?_, ?_, order g6 fun k hk => ?_, ?_, g8, g9, fun _ _ => rfl⟩
  · rw [C30_header_rule _ _ wf] at g1 ⊢
    refine ⟨g1.1, g1.2.1, g1.2.2.1, ?_⟩
    have e : Cuckoo.newCuckaroo unluckyEnv (powMessage b.header) = Cuckoo.newCuckaroo Concrete.env (powMessage b.header) := by
      unfold Cuckoo.newCuckaroo
      rw [unlucky_same]
      simp only [powMessage, List.length_append, wf.previous]
      omega
    rw [e]
    exact g1.2.2.2
  · intro h
    rw [h] at e4
    exact g2 (List.map_eq_nil_iff.1 e4)
  · exact unlucky_same (by simp [h1 i hi])
  · have h := order (k' := fun o : Output Concrete.env => unluckyEnv.blake2b (o.features :: Concrete.pointBytes o.commit)) g5
      fun o ho => unlucky_same (by simp [h2 o ho])
    unfold InOrder at h ⊢
    have m := List.pairwise_map (f := fun o : Output Concrete.env => (o.features, o.commit)) (l := b.outputs)
      (R := fun x y : UInt8 × Point => ¬ bytesLt (unluckyEnv.blake2b (y.1 :: Concrete.pointBytes y.2))
        (unluckyEnv.blake2b (x.1 :: Concrete.pointBytes x.2)) = true)
    have m' := m.2 h
    rw [e4] at m'
    exact List.pairwise_map.1 m'
  · exact unlucky_same (by simp only [List.length_cons, List.length_append, be64_length]; omega)
  · have m : ∀ {E : Env} (l : List (Output E)), (l.filter fun o => isCoinbase o.features).length =
        ((l.map fun o => (o.features, o.commit)).filter fun x => isCoinbase x.1).length := by
      intro E l
      rw [List.filter_map, List.length_map]
      rfl
    rw [m, ← e4, ← m]
    exact g7

/-- A parent with that proof. -/
def unluckyParent : Block unluckyEnv :=
  { header := { sampleHeader with timestamp := ⟨62135596800, 0⟩, pow := { edgeBits := 1, nonces := List.replicate 42 0 } }
    inputs := [], outputs := [], kernels := [] }

theorem unluckyParent_wf : WellFormedHeader unluckyParent.header :=
  { sampleHeader_wf with
    wholeSecond := rfl
    timeLow := by show (-(2 ^ 63) : Int) ≤ 62135596800; norm_num
    timeHigh := by show (62135596800 : Int) < 2 ^ 63; norm_num
    pow := ⟨by decide, by decide, by decide, by decide⟩ }

theorem unluckyParent_zero : ZeroPrefix unluckyEnv unluckyParent.header := by
  refine ⟨[1, 0, 0, 0, 0, 0, 0], by decide +kernel, ?_⟩
  show (if ([1, 0, 0, 0, 0, 0, 0] : Bytes) = [1, 0, 0, 0, 0, 0, 0] then (List.replicate 32 0 : Bytes)
    else Concrete.env.blake2b [1, 0, 0, 0, 0, 0, 0]).take 8 = _
  rw [if_pos rfl]
  decide

/-- **C112 is not a property of the program alone.** With a hash function that maps a proof of work to a hash that
begins with eight zero bytes, a valid block on top of it makes `ProcessBlock` divide by zero. -/
theorem C112_refuted : ∃ E : Env, HashLen E ∧ ∃ (c : Chain E) (st : Storage E) (wire : Bytes) (b : Block E) (what : String),
    Block.read E wire = (.ok b, []) ∧ (∀ id p, st.getBlock id = some p → WellFormedHeader p.header) ∧
    b.validate = .ok () ∧ ((c.processBlock st b).1 = .panic what ∨ (c.processBlock st b).1 = .fatal what) := by
  obtain ⟨b, hb, hbv⟩ := C32_real_block
  have hf := unlucky_facts
  have hr := real_block_facts
  rw [hb] at hf hr
  simp only [Bool.and_eq_true, beq_iff_eq, decide_eq_true_eq, List.all_eq_true] at hf
  obtain ⟨⟨⟨f1, f2⟩, f3⟩, f4⟩ := hf
  have hread : Block.read Concrete.env Vectors.serialisedBlock = (.ok b, []) := by
    unfold Vectors.block at hb
    split at hb
    · rename_i x hx
      rw [hx]; cases hb; rfl
    · cases hb
  have hu := unlucky_read
  rw [hread] at hu
  split at hu
  · rename_i b1 b2 hb1 hb2
    cases hb1
    obtain ⟨⟨r1, hr1⟩, -⟩ := block_read_ok hread
    have wf := (C13_decoded_shape _ _ _ _ hr1).1
    have hv := unlucky_valid b b2 wf hu f1 f2 hbv
    have eh : b.header = b2.header := by
      simp only [sameParts, Bool.and_eq_true, beq_iff_eq] at hu
      exact hu.1.1.1
    let st : Storage unluckyEnv := ⟨fun _ => some unluckyParent, some unluckyParent, fun _ _ => []⟩
    have hst : ∀ id p, st.getBlock id = some p → WellFormedHeader p.header := by
      intro id p hp
      cases hp
      exact unluckyParent_wf
    have hne : ¬ HasHash b2 (unluckyEnv.blake2b []) := by
      intro e
      obtain ⟨w, hw, hl, -⟩ := Proof.proofBytes_ok (p := b.header.pow) (by rw [wf.pow.2.2.1]; simp [ProofSize])
      have e1 : b.hash = .ok (Concrete.env.blake2b w) := by
        show b.header.hash Concrete.env = _
        simp [BlockHeader.hash, hw]
      have e2 : b.header.hash unluckyEnv = .ok (unluckyEnv.blake2b w) := by simp [BlockHeader.hash, hw]
      have e3 : b2.header.hash unluckyEnv = .ok (unluckyEnv.blake2b []) := e
      have e4 : (testnet1 Concrete.env).hash = .ok (Concrete.env.blake2b []) := genesis_hash Concrete.env .testnet1
      rw [← eh, e2, Out.ok.injEq] at e3
      have hlen : w.length ≠ 7 := by
        rw [hl, f4]; decide
      rw [unlucky_same hlen, unlucky_same (by simp)] at e3
      simp only at hr
      rw [e1, e4, e3] at hr
      cases hd : b.header.pow.toDifficulty Concrete.env <;> simp [hd] at hr
    obtain ⟨what, hc⟩ := (C112_crash_partial unlucky_hashLen (Chain.new (testnet1 unluckyEnv) (sqlStorage _)) st _ _ b2 hb2
      (unluckyEnv.blake2b []) (genesis_hash unluckyEnv .testnet1) hst).2
      ⟨hne, hv, unluckyParent, rfl, .inl (by rw [← eh]; exact f3), unluckyParent_zero⟩
    exact ⟨unluckyEnv, unlucky_hashLen, _, st, _, b2, what, hb2, hst, hv, hc⟩
  · cases hu

end Gringo.Props
