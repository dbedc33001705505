import Verif.Props.Sync
import Verif.Props.ChainWitness
/-
C112: refusing a block is an error, not a crash.
-/
namespace Gringo.Props
open Gringo.Spec

/-- The proof of a header has a hash that begins with eight zero bytes. -/
def ZeroPrefix (E : Env) (h : BlockHeader) : Prop :=
  ∃ v, h.pow.bytes = .ok v ∧ (E.blake2b v).take 8 = List.replicate 8 0

theorem fromHash_crash {hash : Bytes} (hl : hash.length = 32) :
    ¬ (difficultyFromHash hash).Safe ↔ hash.take 8 = List.replicate 8 0 := by
  have hz : hashPrefix hash = 0 ↔ hash.take 8 = List.replicate 8 0 := by
    unfold hashPrefix
    constructor
    · intro h
      refine ofBE_inj (by simp [hl]) (h.trans ?_)
      decide
    · intro h; rw [h]; decide
  rw [← hz]
  by_cases h0 : hashPrefix hash = 0
  · rw [(fromHash_closed hash hl).1 h0]
    simp [h0, Out.Safe]
  · obtain ⟨d, e, -⟩ := (fromHash_closed hash hl).2 h0
    rw [e]
    simp [h0, Out.Safe]

theorem toDifficulty_crash (E : Env) (H : HashLen E) (h : BlockHeader) (wf : WellFormedHeader h) :
    ¬ (h.pow.toDifficulty E).Safe ↔ ZeroPrefix E h := by
  obtain ⟨w, hw, -⟩ := Proof.proofBytes_ok (p := h.pow) (by rw [wf.pow.2.2.1]; simp [ProofSize])
  have hb : h.pow.bytes = .ok (h.pow.edgeBits :: w) := by simp [Proof.bytes, hw]
  unfold Proof.toDifficulty ZeroPrefix
  rw [hb]
  simp only [Out.bind_ok, Out.ok.injEq, exists_eq_left']
  exact fromHash_crash (H.length _)

theorem checkParent_crash {E : Env} (H : HashLen E) (st : Storage E) (b : Block E)
    (hst : ∀ p, st.getBlock (parentID b) = some p → WellFormedHeader p.header) :
    ¬ (Chain.checkParent st b).Safe ↔
      ∃ p, st.getBlock (parentID b) = some p ∧ Later b.header.timestamp p.header.timestamp ∧ ZeroPrefix E p.header := by
  unfold Chain.checkParent
  change ¬ Out.Safe (match st.getBlock (parentID b) with | none => _ | some prev => _) ↔ _
  cases hp : st.getBlock (parentID b) with
  | none => simp [Out.Safe]
  | some p =>
    simp only [Option.some.injEq, exists_eq_left']
    have hc := toDifficulty_crash E H p.header (hst p hp)
    rw [← after_iff, ← hc]
    by_cases ht : b.header.timestamp.after p.header.timestamp = true
    swap
    · simp [ht, Out.Safe]
    rw [if_neg (by simp [ht])]
    simp only [ht, true_and]
    cases hd : p.header.pow.toDifficulty E with
    | ok d =>
      simp only [Out.bind_ok]
      split
      · simp [Out.Safe]
      · generalize List.map (fun x : Block E => x.header) _ = l
        obtain ⟨nd, hnd, -⟩ := C35_next_difficulty l
        rw [hnd]
        simp only [Out.bind_ok]
        split <;> simp [Out.Safe]
    | err _ => simp [Out.Safe]
    | panic _ => simp [Out.Safe]
    | fatal _ => simp [Out.Safe]

/-- **C112, exactly when it fails.** Given a block read from the wire, a head with a hash and a storage whose blocks
have well-formed headers (as all that were read from the wire, C13), `ProcessBlock` panics or ends the process exactly
if the block is not the head, is valid, and is later than a stored parent whose proof has a hash that begins with eight
zero bytes. Otherwise it returns, with or without an error. -/
theorem C112_crash_partial {E : Env} (H : HashLen E) (c : Chain E) (st : Storage E) (wire rest : Bytes) (b : Block E)
    (hw : Block.read E wire = (.ok b, rest)) (headHash : Bytes) (hh : HasHash c.head headHash)
    (hst : ∀ id p, st.getBlock id = some p → WellFormedHeader p.header) :
    (∃ what, (c.processBlock st b).1 = .panic what ∨ (c.processBlock st b).1 = .fatal what) ↔
      ¬ HasHash b headHash ∧ b.validate = .ok () ∧
      ∃ p, st.getBlock (parentID b) = some p ∧ Later b.header.timestamp p.header.timestamp ∧ ZeroPrefix E p.header := by
  have hs : (∃ what, (c.processBlock st b).1 = .panic what ∨ (c.processBlock st b).1 = .fatal what) ↔
      ¬ (c.processBlock st b).1.Safe := by
    cases (c.processBlock st b).1 <;> simp [Out.Safe]
  rw [hs]
  obtain ⟨⟨r1, h1⟩, -⟩ := block_read_ok hw
  obtain ⟨-, hok, hvs⟩ := C13_decoded_safe E _ _ _ h1
  have hval := block_validate_safe b hvs
  obtain ⟨x, hx⟩ : ∃ x, b.hash = .ok x := by
    change Out.isOk b.hash = true at hok
    cases hb : b.hash with
    | ok x => exact ⟨x, rfl⟩
    | _ => rw [hb] at hok; simp [Out.isOk] at hok
  unfold HasHash at hh ⊢
  unfold Chain.processBlock
  simp only [hh, hx, Out.bind_ok, Out.ok.injEq]
  by_cases he : headHash = x
  · rw [if_pos he]
    simp [he, Out.Safe]
  · rw [if_neg he]
    rw [← checkParent_crash H st b (hst _)]
    have he' : ¬ x = headHash := fun h => he h.symm
    cases hv : b.validate with
    | ok u => simp [he']
    | err _ => simp [Out.Safe]
    | panic _ => rw [hv] at hval; simp [Out.Safe] at hval
    | fatal _ => rw [hv] at hval; simp [Out.Safe] at hval

/-- **C112, header lists.** `ProcessHeaders` of headers read from the wire returns, with or without an error. -/
theorem C112_headers {E : Env} (hs : List BlockHeader)
    (hw : ∀ h ∈ hs, ∃ wire rest, BlockHeader.read E wire = (.ok h, rest)) :
    Chain.processHeaders E hs = .ok () ∨ ∃ e, Chain.processHeaders E hs = .err e := by
  have := processHeaders_safe (E := E) hs fun h hm => by
    obtain ⟨w, r, hr⟩ := hw h hm
    exact (C13_decoded_safe E w r h hr).2.2
  cases hp : Chain.processHeaders E hs with
  | ok u => exact .inl rfl
  | err e => exact .inr ⟨e, rfl⟩
  | panic _ => rw [hp] at this; simp [Out.Safe] at this
  | fatal _ => rw [hp] at this; simp [Out.Safe] at this

end Gringo.Props
