import Verif.Props.Schnorr
import Verif.Curve.Instance
/-
C69-C73 and C117 on secp256k1 itself: the theorems of Verif/Props/Schnorr.lean with their assumption about the curve
library discharged for the arithmetic of Verif/Concrete/Secp.lean. The statements mention only that arithmetic.
-/
namespace Gringo.Props
open Gringo.Secp Gringo.Curve

attribute [local irreducible] Concrete.modSqrt Concrete.smul Concrete.padd Curve.φ Curve.g

theorem mul_g (k : Nat) : Concrete.smul G k = Curve.φ (k • Curve.g) := by
  have := Curve.lawful.mul Curve.g k
  rw [Curve.lawful.gen] at this
  exact this

/-- **C69** on secp256k1. -/
theorem C69_secp256k1 (x k : Nat) (m : Bytes) :
    verifySignature Concrete.env (Concrete.smul G x) m
      (signMessage Concrete.env (Concrete.smul G x) x m k) = true := by
  rw [mul_g x]
  exact C69_sign_verify Curve.lawful x k m

/-- **C70 is false of the code** on secp256k1: every signature made by `SignMessage` has a second form that
verifies too. -/
theorem C70_secp256k1_refuted (x k : Nat) (m : Bytes) :
    let P := Concrete.smul G x
    let sig := signMessage Concrete.env P x m k
    verifySignature Concrete.env P m sig = true ∧
    verifySignature Concrete.env P m { sig with S := N - sig.S } = true ∧ N - sig.S ≠ sig.S := by
  intro P sig
  have hP : P = Curve.φ (x • Curve.g) := mul_g x
  have hR : sig.R = Curve.φ (k • Curve.g) := mul_g k
  have hS : sig.S < N := Nat.mod_lt _ (by decide)
  have hv : verifySignature Concrete.env P m sig = true := C69_secp256k1 x k m
  have hsig : sig = ⟨sig.S, Curve.φ (k • Curve.g)⟩ := by rw [← hR]
  generalize sig.S = s at *
  rw [hsig, hP] at hv
  obtain ⟨h1, -, h2, -⟩ := C70_refuted Curve.lawful (x • Curve.g) (k • Curve.g) m s hS hv
  refine ⟨?_, ?_, h2⟩
  · rw [hsig, hP]; exact hv
  · rw [hR, hP]; exact h1

/-- **C70, the part that holds**, on secp256k1: no third value of `S` below `N` verifies with the same nonce
point `k • G` under the key `x • G`. -/
theorem C70_secp256k1_partial (x k s t : Nat) (m : Bytes)
    (hs : verifySignature Concrete.env (Concrete.smul G x) m ⟨s, Concrete.smul G k⟩ = true)
    (ht : verifySignature Concrete.env (Concrete.smul G x) m ⟨t, Concrete.smul G k⟩ = true) :
    s % N = t % N ∨ (s + t) % N = 0 := by
  rw [mul_g x, mul_g k] at hs ht
  exact C70_unique_up_to_sign_partial Curve.lawful _ _ m s t hs ht

/-- **C71**, exactly: a signature, serialised and read back, verifies if the ordinate of its nonce point is the
root that `ModSqrtFast` returns, and fails otherwise, unless `x` or the challenge is zero modulo `N`. -/
theorem C71_secp256k1 (x k : Nat) (m : Bytes) (hk : ¬ N ∣ k) (hx : ¬ N ∣ x)
    (he : ¬ N ∣ challenge Concrete.env (Concrete.smul G k) (Concrete.smul G x) m) :
    verifySignature Concrete.env (Concrete.smul G x) m
      (decodeSignature Concrete.env ((signMessage Concrete.env (Concrete.smul G x) x m k).bytes Concrete.env)) = true ↔
    (Concrete.smul G k).Y =
      Concrete.modSqrt ((Concrete.smul G k).X * (Concrete.smul G k).X * (Concrete.smul G k).X + 7) := by
  rw [mul_g x, mul_g k] at *
  constructor
  · intro h
    by_contra hne
    have := C71_refuted Curve.lawful prime_N x k m hk hx he (fun e => hne e.symm)
    rw [this] at h
    cases h
  · intro h
    exact C71_serialised_partial Curve.lawful x k m h.symm

/-- Opposite nonces have opposite nonce points: one of the two is hit by the defect, the other is not. -/
theorem C71_half (k : Nat) (hk : ¬ N ∣ k) (hlt : k < N) :
    ((Concrete.smul G k).Y =
      Concrete.modSqrt ((Concrete.smul G k).X * (Concrete.smul G k).X * (Concrete.smul G k).X + 7)) ↔
    ¬ ((Concrete.smul G (N - k)).Y =
      Concrete.modSqrt ((Concrete.smul G (N - k)).X * (Concrete.smul G (N - k)).X * (Concrete.smul G (N - k)).X + 7)) := by
  have hneg : (N - k) • Curve.g = -(k • Curve.g) := by
    rw [eq_neg_iff_add_eq_zero, ← add_nsmul, Nat.sub_add_cancel (Nat.le_of_lt hlt), Curve.lawful.order]
  have hk0 : k • Curve.g ≠ 0 := fun h => hk (Curve.lawful.genOrder k h)
  rw [mul_g, mul_g, hneg]
  have hX : (Curve.φ (-(k • Curve.g))).X = (Curve.φ (k • Curve.g)).X := (Curve.lawful.abscissa _ _).2 (.inr rfl)
  have hroot := Curve.lawful.root _ hk0
  change Concrete.modSqrt _ = _ ∨ Concrete.modSqrt _ = _ at hroot
  have hne : (Curve.φ (k • Curve.g)).Y ≠ (Curve.φ (-(k • Curve.g))).Y := by
    intro hY
    have : k • Curve.g = -(k • Curve.g) := Curve.lawful.inj (by
      revert hX hY
      generalize Curve.φ (k • Curve.g) = a
      generalize Curve.φ (-(k • Curve.g)) = b
      intro hX hY
      obtain ⟨_, _⟩ := a
      obtain ⟨_, _⟩ := b
      simp only at hX hY
      rw [hX, hY])
    have h2 : (2 * k) • Curve.g = 0 := by
      rw [two_mul, add_nsmul]
      conv_lhs => arg 1; rw [this]
      exact neg_add_cancel _
    rcases (Nat.Prime.dvd_mul prime_N).1 (Curve.lawful.genOrder _ h2) with h | h
    · exact absurd (Nat.le_of_dvd (by decide) h) (by decide)
    · exact hk h
  rw [hX]
  generalize Concrete.modSqrt _ = r at *
  rcases hroot with h | h
  · rw [h]; exact ⟨fun _ h' => hne h'.symm, fun _ => rfl⟩
  · rw [h]; exact ⟨fun h' => absurd h' hne, fun h' => absurd rfl h'⟩

set_option maxRecDepth 100000 in
/-- Both cases occur: with key 12345, a signature over the message of fee 7 and lock height 0 with nonce 2
survives serialisation, one with nonce 3 does not. -/
theorem C71_secp256k1_refuted :
    let P := Concrete.smul G 12345
    let m := computeMessage 7 0
    verifySignature Concrete.env P m
      (decodeSignature Concrete.env ((signMessage Concrete.env P 12345 m 2).bytes Concrete.env)) = true ∧
    verifySignature Concrete.env P m
      (decodeSignature Concrete.env ((signMessage Concrete.env P 12345 m 3).bytes Concrete.env)) = false := by
  decide +kernel

set_option maxRecDepth 100000 in
/-- The hypotheses of `C71_secp256k1` hold there. -/
example : ¬ N ∣ 3 ∧ ¬ N ∣ 12345 ∧
    ¬ N ∣ challenge Concrete.env (Concrete.smul G 3) (Concrete.smul G 12345) (computeMessage 7 0) := by
  decide +kernel

/-- **C117, signing**, on secp256k1: with key `x`, nonce `k` and `e` the SHA-256 hash as a number. -/
theorem C117_secp256k1_made (x k : Nat) (m : Bytes) (e : Nat) (he : e < 2 ^ 256)
    (hd : Concrete.env.sha256 (hashedForChallenge (Concrete.smul G k) (Concrete.smul G x) m) = be 32 e) :
    signMessage Concrete.env (Concrete.smul G x) x m k = ⟨(k + e * x) % N, Concrete.smul G k⟩ := by
  rw [mul_g x, mul_g k] at *
  exact C117_made Curve.lawful _ x k m e he hd

/-- **C117, the part that holds**, on secp256k1: with the nonce point `k • G` and the key `x • G` a number `s` is
accepted if and only if it is `k + e·x` or its opposite modulo the group order. -/
theorem C117_secp256k1_partial (x k : Nat) (m : Bytes) (s e : Nat) (he : e < 2 ^ 256)
    (hd : Concrete.env.sha256 (hashedForChallenge (Concrete.smul G k) (Concrete.smul G x) m) = be 32 e) :
    verifySignature Concrete.env (Concrete.smul G x) m ⟨s, Concrete.smul G k⟩ = true ↔
      s % N = (k + e * x) % N ∨ (s + (k + e * x)) % N = 0 := by
  rw [mul_g x, mul_g k] at *
  have hz : ∀ a : Nat, a • Curve.g = 0 ↔ a % N = 0 := fun a =>
    ⟨fun h => Nat.mod_eq_zero_of_dvd (Curve.lawful.genOrder a h), fun h => by
      rw [← smul_mod Curve.lawful a, h, zero_smul]⟩
  have hpos : 0 < N := by decide
  have hsum : k • Curve.g + e • x • Curve.g = (k + e * x) • Curve.g := by rw [add_smul, mul_smul]
  rw [C117_equation_partial Curve.lawful _ _ m s e he hd, hsum, eq_neg_iff_add_eq_zero, ← add_smul, hz]
  refine or_congr ⟨fun h => ?_, fun h => ?_⟩ Iff.rfl
  · generalize hq : k + e * x = q at h
    have h1 : (s + (N - q % N)) • Curve.g = 0 := by
      rw [add_smul, h, ← smul_mod Curve.lawful q, ← add_smul, Nat.add_sub_cancel' (Nat.mod_lt _ hpos).le]
      exact Curve.lawful.order _
    rw [hz] at h1
    have h2 := Nat.mod_lt q hpos
    have h3 := Nat.mod_lt s hpos
    rw [Nat.add_mod] at h1
    obtain ⟨c, hc⟩ := Nat.dvd_of_mod_eq_zero h1
    rcases Nat.eq_zero_or_pos (q % N) with h0 | h0
    · rw [h0, Nat.sub_zero, Nat.mod_self, Nat.add_zero] at h1
      rw [h0, ← h1, Nat.mod_mod]
    · rw [Nat.mod_eq_of_lt (show N - q % N < N by omega)] at h1
      have := Nat.dvd_of_mod_eq_zero h1
      have h5 : s % N + (N - q % N) = N := by
        obtain ⟨c, hc⟩ := this
        have : c < 2 := by
          by_contra hge
          have : N * 2 ≤ N * c := Nat.mul_le_mul_left N (by omega)
          omega
        rcases (by omega : c = 0 ∨ c = 1) with rfl | rfl <;> omega
      omega
  · rw [← smul_mod Curve.lawful s, h, smul_mod Curve.lawful]

set_option maxRecDepth 100000 in
/-- `e` for nonce 2, key 12345 and the message of fee 7 and lock height 0; it is not zero modulo the group order. -/
example : ∃ e, e < 2 ^ 256 ∧ 0 < e % N ∧ Concrete.env.sha256
    (hashedForChallenge (Concrete.smul G 2) (Concrete.smul G 12345) (computeMessage 7 0)) = be 32 e :=
  ⟨challenge Concrete.env (Concrete.smul G 2) (Concrete.smul G 12345) (computeMessage 7 0), by decide +kernel⟩

/-- **C73** on secp256k1. -/
theorem C73_secp256k1 (b1 v1 b2 v2 : Nat) :
    Concrete.padd (commitValue Concrete.env b1 v1) (commitValue Concrete.env b2 v2) =
      commitValue Concrete.env (b1 + b2) (v1 + v2) :=
  C73_homomorphic Curve.lawful b1 v1 b2 v2

/-- **C72** on secp256k1: the challenge of a signature determines the nonce point up to sign, the public key and
the message, as far as the hashed bytes do. -/
theorem C72_secp256k1 (k1 x1 k2 x2 : Nat) (m1 m2 : Bytes)
    (h : challengeInput Concrete.env (Concrete.smul G k1) (Concrete.smul G x1) m1 =
      challengeInput Concrete.env (Concrete.smul G k2) (Concrete.smul G x2) m2) :
    ((Concrete.smul G k1) = (Concrete.smul G k2) ∨ (Concrete.smul G k1) = (Concrete.smul G (N - k2 % N))) ∧
      m1 = m2 := by
  rw [mul_g, mul_g, mul_g, mul_g] at *
  have hs := Curve.lawful.small
  obtain ⟨h1, -, -, h4⟩ := C72_challenge_injective Concrete.env (fun _ _ => rfl) _ _ _ _ _ _ (hs _) (hs _) (hs _) (hs _) h
  refine ⟨?_, h4⟩
  rcases (Curve.lawful.abscissa _ _).1 h1 with h | h
  · exact .inl (congrArg _ h)
  · right
    have hj : k2 % N ≤ N := Nat.le_of_lt (Nat.mod_lt _ (by decide))
    have e := smul_mod Curve.lawful k2 Curve.g
    rw [h, ← e]
    generalize k2 % N = j at hj
    have : -(j • Curve.g) = (N - j) • Curve.g := by
      rw [eq_comm, eq_neg_iff_add_eq_zero, ← add_nsmul, Nat.sub_add_cancel hj, Curve.lawful.order]
    rw [this]

/-- The concrete environment meets every assumption of the theorems about decoders, sorting and hashing. -/
example : PointCodec Concrete.env Curve.OKPoint ∧ PrfCodec Concrete.env (fun _ => True) ∧ SortOK Concrete.env ∧
    HashLen Concrete.env ∧ LawfulCurve Concrete.env Curve.Γ Curve.φ Curve.g Curve.h :=
  ⟨Curve.pointCodec, Curve.prfCodec, Curve.sortOK, Curve.hashLen, Curve.lawful⟩

end Gringo.Props
