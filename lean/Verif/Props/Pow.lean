import Verif.Spec.Pow
import Verif.Proofs.Proof
import Verif.Spec.Toy
/-
C10, C11: the wire format of the proof of work.
-/
namespace Gringo.Props
open Gringo.Spec

/-- The proofs the codec is made for: 42 nonces that fit into `EdgeBits` bits, `1 ≤ EdgeBits ≤ 64`. -/
def Packable (p : Proof) : Prop :=
  1 ≤ p.edgeBits.toNat ∧ p.edgeBits.toNat ≤ 64 ∧ p.nonces.length = 42 ∧
    ∀ n ∈ p.nonces, n.toNat < 2 ^ p.edgeBits.toNat

/-- **C10.** A packable proof is serialised to `1 + ceil(42 * EdgeBits / 8)` bytes: the size byte and a
stream in which bit `b` of nonce `i` is bit `i * EdgeBits + b` and all other bits are 0; reading these bytes
back, whatever follows them, gives the same proof. -/
theorem C10_pow_roundtrip (E : Env) (hmem : 336 ≤ E.maxAlloc) (p : Proof) (hp : Packable p) :
    ∃ v, p.bytes = .ok (p.edgeBits :: v) ∧ v.length = (42 * p.edgeBits.toNat + 7) / 8 ∧
      (∀ k, streamBit v k = true ↔
        ∃ i b n, b < p.edgeBits.toNat ∧ k = i * p.edgeBits.toNat + b ∧ p.nonces[i]? = some n ∧
          n.toNat.testBit b = true) ∧
      Reads (Proof.read E) (p.edgeBits :: v) p := by
  obtain ⟨h1, h2, h3, h4⟩ := hp
  obtain ⟨v, hv, hl, hbits⟩ := Proof.proofBytes_ok (p := p) (by unfold ProofSize; omega)
  refine ⟨v, by simp [Proof.bytes, hv], ?_, ?_, ?_⟩
  · rw [hl]; unfold Proof.packedLen ProofSize; rw [Nat.mul_comm]
  · intro k
    have := hbits k
    change Proof.bitAt v k = true ↔ _
    rw [this]
    constructor
    · rintro ⟨i, b, hb, hk, ht⟩
      obtain ⟨n, hn, ht⟩ := (Option.any_eq_true ..).1 ht
      exact ⟨i, b, n, hb, hk, hn, ht⟩
    · rintro ⟨i, b, n, hb, hk, hn, ht⟩
      exact ⟨i, b, hb, hk, by simp [hn, ht]⟩
  · have := Proof.read_cons hmem h1 h2 hl
    have hn : (List.range 42).map (Proof.unpackNonce p.edgeBits.toNat v) = p.nonces := by
      apply List.ext_getElem
      · simp [h3]
      · intro i hi hi'
        simp only [List.getElem_map, List.getElem_range]
        apply Proof.unpack_eq_of_bits (h4 _ (List.getElem_mem _))
        intro b hb
        rw [Proof.proofBytes_bit (by unfold ProofSize; omega) hv hb]
        simp [List.getElem?_eq_getElem hi']
    rw [hn] at this
    exact this

/-- A proof with 42 different 29-bit nonces is packable. -/
example : Packable { edgeBits := 29, nonces := (List.range 42).map fun i => UInt32.ofNat (i * 12345678) } := by
  refine ⟨by decide, by decide, by simp, ?_⟩
  decide +kernel

/-- **C11, exact form.** Every accepted encoding `eb :: v` decodes to a proof that can be serialised again;
the result is the original encoding exactly when all bits of `v` that carry no information are 0. The full
property (always the original encoding) is false: see `C11_refuted`. -/
theorem C11_canonical_partial (E : Env) (s r : Bytes) (p : Proof)
    (h : Proof.read E s = (.ok p, r)) :
    ∃ v, s = p.edgeBits :: v ++ r ∧ (p.bytes).isOk ∧
      (p.bytes = .ok (p.edgeBits :: v) ↔
        ∀ k, k < 8 * v.length → ignoredBit p.edgeBits.toNat k → streamBit v k = false) := by
  obtain ⟨v, hs, h1, h2, hl, hn⟩ := Proof.read_ok h
  have hlen : p.nonces.length = ProofSize := by rw [hn]; simp [ProofSize]
  obtain ⟨v', hv', hl', hbits⟩ := Proof.proofBytes_ok (p := p) (by omega)
  have hb : p.bytes = .ok (p.edgeBits :: v') := by simp [Proof.bytes, hv']
  refine ⟨v, hs, by rw [hb]; rfl, ?_⟩
  rw [hb]
  have hlow : ∀ i b, i < 42 → b < p.edgeBits.toNat →
      Proof.bitAt v' (i * p.edgeBits.toNat + b) =
        (decide (b < 32) && Proof.bitAt v (i * p.edgeBits.toNat + b)) := by
    intro i b hi hb
    rw [Proof.proofBytes_bit (by omega) hv' hb, hn]
    simp [hi, Proof.unpackNonce_testBit, hb]
  have hhigh : ∀ k, 42 * p.edgeBits.toNat ≤ k → Proof.bitAt v' k = false := by
    intro k hk
    rw [← Bool.not_eq_true, hbits]
    rintro ⟨i, b, hb, rfl, ht⟩
    obtain ⟨x, hx, -⟩ := (Option.any_eq_true ..).1 ht
    have hi : i < 42 := by
      obtain ⟨hi, -⟩ := List.getElem?_eq_some_iff.1 hx
      rw [hlen] at hi; exact hi
    have := Nat.mul_le_mul_right p.edgeBits.toNat (show i + 1 ≤ 42 by omega)
    rw [Nat.succ_mul] at this
    omega
  have hdec : ∀ k, k < 42 * p.edgeBits.toNat → ∃ i b, i < 42 ∧ b < p.edgeBits.toNat ∧
      k = i * p.edgeBits.toNat + b ∧ b = k % p.edgeBits.toNat := by
    intro k hk
    refine ⟨k / p.edgeBits.toNat, k % p.edgeBits.toNat, ?_, Nat.mod_lt _ (by omega), ?_, rfl⟩
    · rw [Nat.div_lt_iff_lt_mul (by omega)]; exact hk
    · rw [Nat.mul_comm]; exact (Nat.div_add_mod _ _).symm
  constructor
  · intro he k hk hig
    simp only [Out.ok.injEq, List.cons.injEq, true_and] at he
    subst he
    change Proof.bitAt v' k = false
    by_cases hk42 : 42 * p.edgeBits.toNat ≤ k
    · exact hhigh k hk42
    · obtain ⟨i, b, hi, hb, rfl, hbk⟩ := hdec k (by omega)
      rw [hlow i b hi hb]
      rcases hig with h | h
      · omega
      · rw [← hbk] at h
        simp [show ¬ b < 32 by omega]
  · intro hz
    congr 2
    apply Proof.bytes_ext_bits (by rw [hl, hl'])
    intro k hk
    by_cases hk42 : 42 * p.edgeBits.toNat ≤ k
    · rw [hhigh k hk42]
      exact (hz k (by rw [hl', ← hl] at hk; omega) (.inl hk42)).symm
    · obtain ⟨i, b, hi, hb, rfl, hbk⟩ := hdec k (by omega)
      rw [hlow i b hi hb]
      by_cases h32 : b < 32
      · simp [h32]
      · have := hz (i * p.edgeBits.toNat + b) (by rw [hl', ← hl] at hk; omega) (.inr (by omega))
        change Proof.bitAt v _ = false at this
        rw [this]; simp

/-- **C11 holds for the sizes 4, 8, ..., 32**: there re-serialising a decoded proof gives the bytes it was
decoded from. -/
theorem C11_canonical_sizes_partial (E : Env) (s r : Bytes) (p : Proof) (h : Proof.read E s = (.ok p, r))
    (h4 : p.edgeBits.toNat % 4 = 0) (h32 : p.edgeBits.toNat ≤ 32) :
    ∃ w, s = w ++ r ∧ p.bytes = .ok w := by
  obtain ⟨v, hs, -, hiff⟩ := C11_canonical_partial E s r p h
  obtain ⟨u, hu, h1, -, hl, -⟩ := Proof.read_ok h
  have huv : u = v := by
    rw [hu] at hs
    simpa using hs
  subst huv
  refine ⟨_, hs, hiff.2 ?_⟩
  intro k hk hig
  unfold Proof.packedLen ProofSize at hl
  rcases hig with hig | hig
  · omega
  · have := Nat.mod_lt k (show 0 < p.edgeBits.toNat by omega)
    omega

/-- The hypotheses of `C11_canonical_sizes_partial` and of `C11_refuted` below can be met. -/
example : (∃ p, Proof.read Toy.env (32 :: List.replicate 168 7) = (.ok p, []) ∧
    p.edgeBits.toNat % 4 = 0 ∧ p.edgeBits.toNat ≤ 32) ∧
    ∃ q, Proof.read Toy.env (29 :: List.replicate 153 7) = (.ok q, []) := by
  have h1 := Proof.read_cons (E := Toy.env) (eb := 32) (v := List.replicate 168 7) (by norm_num) (by decide)
    (by decide) (by rw [List.length_replicate]; rfl) []
  have h2 := Proof.read_cons (E := Toy.env) (eb := 29) (v := List.replicate 153 7) (by norm_num) (by decide)
    (by decide) (by rw [List.length_replicate]; rfl) []
  rw [List.append_nil] at h1 h2
  exact ⟨⟨_, h1, by decide, by decide⟩, _, h2⟩

/-- **C11 is false of the code**, for every edge-bit size other than 4, 8, ..., 32 (so for both sizes
the network uses, 29 and 30 upwards): every accepted encoding has a sibling of the same length that differs
from it and decodes to the same proof. -/
theorem C11_refuted (E : Env) (eb : UInt8) (v : Bytes) (p : Proof)
    (hsize : eb.toNat % 4 ≠ 0 ∨ 32 < eb.toNat)
    (h : Proof.read E (eb :: v) = (.ok p, [])) :
    ∃ v', v' ≠ v ∧ v'.length = v.length ∧ Proof.read E (eb :: v') = (.ok p, []) := by
  obtain ⟨u, hs, h1, h2, hl, hn⟩ := Proof.read_ok h
  simp only [List.append_nil, List.cons.injEq] at hs
  obtain ⟨rfl, rfl⟩ := hs
  have hmem : Proof.packedLen p.edgeBits * 1 ≤ E.maxAlloc := by
    by_contra hc
    have hne : ¬ (p.edgeBits = 0 ∨ p.edgeBits > 64) := by
      rintro (h | h)
      · rw [h] at h1; simp at h1
      · have := UInt8.lt_iff_toNat_lt.1 h
        simp at this; omega
    simp only [Proof.read, Rd.bind_run, Rd.u8_cons, Rd.cont_ok] at h
    rw [if_neg hne] at h
    simp only [Rd.bind_run] at h
    simp [Rd.make, show ¬ Proof.packedLen p.edgeBits ≤ E.maxAlloc by omega] at h
  -- a bit nobody looks at
  obtain ⟨k, hk, hig⟩ : ∃ k, k < v.length * 8 ∧ ∀ i b, i < 42 → b < p.edgeBits.toNat → b < 32 →
      i * p.edgeBits.toNat + b ≠ k := by
    have hlen : v.length = (p.edgeBits.toNat * 42 + 7) / 8 := hl
    by_cases hbig : 32 < p.edgeBits.toNat
    · refine ⟨32, by omega, ?_⟩
      intro i b _ hb hb32 he
      have := Proof.pos_inj hb hbig (show i * p.edgeBits.toNat + b = 0 * p.edgeBits.toNat + 32 by omega)
      omega
    · refine ⟨p.edgeBits.toNat * 42, by omega, ?_⟩
      intro i b hi hb _ he
      have := Nat.mul_le_mul_right p.edgeBits.toNat (show i + 1 ≤ 42 by omega)
      rw [Nat.succ_mul] at this
      omega
  refine ⟨Proof.flipBit v k, ?_, by simp [Proof.flipBit], ?_⟩
  · intro he
    have := Proof.bitAt_flipBit hk k
    rw [he] at this
    cases hb : Proof.bitAt v k <;> simp [hb] at this
  · have hnon : (List.range 42).map (Proof.unpackNonce p.edgeBits.toNat (Proof.flipBit v k)) = p.nonces := by
      rw [hn]
      apply List.map_congr_left
      intro i hi
      rw [List.mem_range] at hi
      apply UInt32.toNat_inj.1
      apply Nat.eq_of_testBit_eq
      intro j
      rw [Proof.unpackNonce_testBit, Proof.unpackNonce_testBit, Proof.bitAt_flipBit hk]
      by_cases hj : j < p.edgeBits.toNat
      · by_cases h32 : j < 32
        · simp [hig i j hi hj h32]
        · simp [h32]
      · simp [hj]
    have hvl : (Proof.flipBit v k).length = Proof.packedLen p.edgeBits := by simp [Proof.flipBit, hl]
    have hne : ¬ (p.edgeBits = 0 ∨ p.edgeBits > 64) := by
      rintro (h | h)
      · rw [h] at h1; simp at h1
      · have := UInt8.lt_iff_toNat_lt.1 h
        simp at this; omega
    have hfull := Rd.readFull_append hvl []
    rw [List.append_nil] at hfull
    simp only [Proof.read, Rd.bind_run, Rd.u8_cons, Rd.cont_ok]
    rw [if_neg hne]
    simp only [Rd.bind_run, Rd.make_ok hmem, Rd.cont_ok, hfull, Rd.pure_run, ProofSize, hnon]

end Gringo.Props
