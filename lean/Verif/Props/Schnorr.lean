import Verif.Spec.Curve
import Verif.Proofs.Codec
import Mathlib.Data.Nat.Prime.Defs
import Mathlib.Tactic.Abel
import Mathlib.Tactic.Linarith
/-
C69-C74, C117: signatures, commitments, random scalars.
-/
namespace Gringo.Props
open Gringo.Secp

section
variable {E : Env} {Γ : Type} [AddCommGroup Γ] {φ : Γ → Point} {g h : Γ}

theorem smul_mod (L : LawfulCurve E Γ φ g h) (k : Nat) (a : Γ) : (k % N) • a = k • a := by
  conv => rhs; rw [← Nat.mod_add_div k N, add_smul, mul_comm, mul_smul, L.order, smul_zero, add_zero]

/-- The verification equation in the group. -/
theorem verify_iff (L : LawfulCurve E Γ φ g h) (P r : Γ) (m : Bytes) (s : Nat) :
    verifySignature E (φ P) m ⟨s, φ r⟩ = true ↔
      s • g = r + challenge E (φ r) (φ P) m • P ∨ s • g = -(r + challenge E (φ r) (φ P) m • P) := by
  unfold verifySignature
  simp only [beq_iff_eq]
  rw [← L.gen, L.mul, L.mul, L.add, L.abscissa]

/-- **C69.** For every private key `x`, nonce `k` and message, the signature verifies under `x • g`. -/
theorem C69_sign_verify (L : LawfulCurve E Γ φ g h) (x k : Nat) (m : Bytes) :
    verifySignature E (φ (x • g)) m (signMessage E (φ (x • g)) x m k) = true := by
  have hR : E.smul G k = φ (k • g) := by rw [← L.gen, L.mul]
  unfold signMessage
  simp only [hR]
  rw [verify_iff L, L.ssum, L.smulS]
  left
  rw [smul_mod L, add_smul, smul_mod L, mul_smul]

/-- **C70 is false of the code.** From a valid signature `(R, s)` anyone gets the valid signatures
`(R, N - s)` and `(R, s + N)`: only abscissas are compared and `s` is not range-checked. -/
theorem C70_refuted (L : LawfulCurve E Γ φ g h) (P r : Γ) (m : Bytes) (s : Nat) (hs : s < N)
    (hv : verifySignature E (φ P) m ⟨s, φ r⟩ = true) :
    verifySignature E (φ P) m ⟨N - s, φ r⟩ = true ∧ verifySignature E (φ P) m ⟨s + N, φ r⟩ = true ∧
      N - s ≠ s ∧ s + N ≠ s := by
  rw [verify_iff L] at hv ⊢
  rw [verify_iff L]
  have e1 : (N - s) • g = -(s • g) := by
    rw [eq_neg_iff_add_eq_zero, ← add_smul, Nat.sub_add_cancel (Nat.le_of_lt hs), L.order]
  have e2 : (s + N) • g = s • g := by rw [add_smul, L.order, add_zero]
  have hodd : N % 2 = 1 := by decide
  have hpos : 0 < N := by decide
  refine ⟨?_, ?_, by omega, by omega⟩
  · rw [e1, neg_inj]
    rcases hv with hv | hv
    · exact .inr hv
    · exact .inl (by rw [hv, neg_neg])
  · rw [e2]; exact hv

/-- **C70, the part that holds**: for a given nonce point, key and message, these are the only other
valid values: any two valid `s` agree modulo `N` up to sign. -/
theorem C70_unique_up_to_sign_partial (L : LawfulCurve E Γ φ g h) (P r : Γ) (m : Bytes) (s t : Nat)
    (hs : verifySignature E (φ P) m ⟨s, φ r⟩ = true) (ht : verifySignature E (φ P) m ⟨t, φ r⟩ = true) :
    s % N = t % N ∨ (s + t) % N = 0 := by
  rw [verify_iff L] at hs ht
  have hN : 0 < N := by decide
  have key : ∀ a b : Nat, a • g = b • g → a % N = b % N := by
    have aux : ∀ a b : Nat, a ≤ b → a • g = b • g → a % N = b % N := by
      intro a b hab h
      obtain ⟨c, rfl⟩ := Nat.exists_eq_add_of_le hab
      rw [add_smul] at h
      have : c • g = 0 := by simpa using h.symm
      obtain ⟨q, rfl⟩ := L.genOrder c this
      rw [Nat.add_mul_mod_self_left]
    intro a b h
    rcases Nat.le_total a b with hab | hab
    · exact aux a b hab h
    · exact (aux b a hab h.symm).symm
  have opp : ∀ a b : Nat, a • g = -(b • g) → (a + b) % N = 0 := by
    intro a b h
    have : (a + b) • g = 0 := by rw [add_smul, h, neg_add_cancel]
    exact Nat.mod_eq_zero_of_dvd (L.genOrder _ this)
  rcases hs with hs | hs <;> rcases ht with ht | ht
  · exact .inl (key s t (hs.trans ht.symm))
  · exact .inr (opp s t (by rw [hs, ht, neg_neg]))
  · exact .inr (opp s t (by rw [hs, ht]))
  · exact .inl (key s t (hs.trans ht.symm))

theorem take_be32 (a b : Nat) : (be 32 a ++ be 32 b).take 32 = be 32 a := by
  rw [List.take_left' (be_length 32 a)]

theorem drop_be32 (a b : Nat) : (be 32 a ++ be 32 b).drop 32 = be 32 b := by
  rw [List.drop_left' (be_length 32 a)]

theorem decode_bytes (L : LawfulCurve E Γ φ g h) (s : Nat) (r : Γ) (hs : s < N) :
    decodeSignature E (Signature.bytes E ⟨s, φ r⟩) =
      ⟨s, ⟨(φ r).X, E.modSqrt ((φ r).X * (φ r).X * (φ r).X + 7)⟩⟩ := by
  have hN : N < 2 ^ 256 := by decide
  have h256 : (256 : Nat) ^ 32 = 2 ^ 256 := by decide
  have hx := L.small r
  unfold decodeSignature Signature.bytes decompressPoint
  simp only
  rw [L.b32 _ hx, L.b32 _ (by omega), take_be32, drop_be32, ofBE_be, ofBE_be, h256, Nat.mod_eq_of_lt hx,
    Nat.mod_eq_of_lt (show s < 2 ^ 256 by omega)]

theorem ssum_lt (L : LawfulCurve E Γ φ g h) (a b : Nat) : E.ssum a b < N := by
  rw [L.ssum]; exact Nat.mod_lt _ (by decide)

/-- **C71, the part that holds.** The serialised signature verifies when the ordinate of the nonce point
`k • g` is the square root `ModSqrtFast` returns. -/
theorem C71_serialised_partial (L : LawfulCurve E Γ φ g h) (x k : Nat) (m : Bytes)
    (hroot : E.modSqrt ((φ (k • g)).X * (φ (k • g)).X * (φ (k • g)).X + 7) = (φ (k • g)).Y) :
    verifySignature E (φ (x • g)) m
      (decodeSignature E ((signMessage E (φ (x • g)) x m k).bytes E)) = true := by
  have hR : E.smul G k = φ (k • g) := by rw [← L.gen, L.mul]
  have hv := C69_sign_verify L x k m
  unfold signMessage at hv ⊢
  simp only [hR] at hv ⊢
  rw [decode_bytes L _ _ (ssum_lt L _ _), hroot]
  exact hv

/-- **C71 is false of the code.** When `ModSqrtFast` returns the other root (half of all nonce points), the
serialised signature does not verify, unless the challenge times the key is zero modulo `N`. -/
theorem C71_refuted (L : LawfulCurve E Γ φ g h) (hprime : N.Prime) (x k : Nat) (m : Bytes)
    (hk : ¬ N ∣ k) (hx : ¬ N ∣ x) (he : ¬ N ∣ challenge E (φ (k • g)) (φ (x • g)) m)
    (hroot : E.modSqrt ((φ (k • g)).X * (φ (k • g)).X * (φ (k • g)).X + 7) ≠ (φ (k • g)).Y) :
    verifySignature E (φ (x • g)) m
      (decodeSignature E ((signMessage E (φ (x • g)) x m k).bytes E)) = false := by
  have hR : E.smul G k = φ (k • g) := by rw [← L.gen, L.mul]
  have hk0 : k • g ≠ 0 := fun h => hk (L.genOrder k h)
  have hneg : E.modSqrt ((φ (k • g)).X * (φ (k • g)).X * (φ (k • g)).X + 7) = (φ (-(k • g))).Y :=
    (L.root _ hk0).resolve_left hroot
  have hX : (φ (-(k • g))).X = (φ (k • g)).X := (L.abscissa _ _).2 (.inr rfl)
  unfold signMessage
  simp only [hR]
  rw [decode_bytes L _ _ (ssum_lt L _ _), hneg, ← hX,
    show (⟨(φ (-(k • g))).X, (φ (-(k • g))).Y⟩ : Point) = φ (-(k • g)) from rfl]
  have hch : challenge E (φ (-(k • g))) (φ (x • g)) m = challenge E (φ (k • g)) (φ (x • g)) m := by
    unfold challenge challengeInput; rw [hX]
  rw [← Bool.not_eq_true, verify_iff L, hch]
  set e := challenge E (φ (k • g)) (φ (x • g)) m with hedef
  rw [L.ssum, L.smulS, smul_mod L, add_smul, smul_mod L, mul_smul]
  have two : ∀ n : Nat, (2 * n) • g = 0 → N ∣ n := by
    intro n h
    have := L.genOrder _ h
    rcases hprime.dvd_mul.1 this with h2 | h2
    · exact absurd (Nat.le_of_dvd (by decide) h2) (by decide)
    · exact h2
  rintro (h1 | h1)
  · apply hk
    apply two
    have : k • g + k • g = 0 := by
      have := congrArg (fun z => z + k • g - e • x • g) h1
      abel_nf at this ⊢
      exact this
    rw [two_mul, add_smul, this]
  · have : e • x • g + e • x • g = 0 := by
      have := congrArg (fun z => z - k • g + e • x • g) h1
      abel_nf at this ⊢
      exact this
    have h2 : N ∣ e * x := two _ (by rw [two_mul, add_smul, mul_smul, this])
    rcases hprime.dvd_mul.1 h2 with h3 | h3
    · exact he h3
    · exact hx h3

/-- **C73.** -/
theorem C73_homomorphic (L : LawfulCurve E Γ φ g h) (b1 v1 b2 v2 : Nat) :
    E.padd (commitValue E b1 v1) (commitValue E b2 v2) = commitValue E (b1 + b2) (v1 + v2) := by
  unfold commitValue
  rw [← L.gen, ← L.genH]
  simp only [L.mul, L.add]
  rw [add_smul, add_smul]
  congr 1
  abel

/-- The same with the library's own scalar sums. -/
theorem C73_homomorphic_mod (L : LawfulCurve E Γ φ g h) (b1 v1 b2 v2 : Nat) :
    E.padd (commitValue E b1 v1) (commitValue E b2 v2) = commitValue E (E.ssum b1 b2) (E.ssum v1 v2) := by
  rw [C73_homomorphic L]
  unfold commitValue
  rw [← L.gen, ← L.genH]
  simp only [L.mul, L.add, L.ssum, smul_mod L]

/-- A commitment to 0 with blinding factor `b` is `b • g`: this is what makes an excess a public key. -/
theorem C73_zero_value (L : LawfulCurve E Γ φ g h) (b : Nat) : commitValue E b 0 = φ (b • g) := by
  unfold commitValue
  rw [← L.gen, ← L.genH]
  simp only [L.mul, L.add, zero_smul, add_zero]

/-- What is hashed for the challenge, from the coordinates: the nonce point's abscissa, 3 for an odd and 2 for an even
ordinate of the key, the key's abscissa, the message; numbers as 32 bytes, most significant first. -/
def hashedForChallenge (R P : Point) (m : Bytes) : Bytes :=
  be 32 R.X ++ ((if P.Y % 2 = 1 then 3 else 2) :: be 32 P.X) ++ m

theorem challenge_eq (L : LawfulCurve E Γ φ g h) (P r : Γ) (m : Bytes) (e : Nat) (he : e < 2 ^ 256)
    (hd : E.sha256 (hashedForChallenge (φ r) (φ P) m) = be 32 e) : challenge E (φ r) (φ P) m = e := by
  unfold challenge challengeInput compressPubkey
  unfold hashedForChallenge at hd
  rw [L.b32 _ (L.small _), L.b32 _ (L.small _), hd, ofBE_be]
  exact Nat.mod_eq_of_lt (by omega)

/-- **C117, signing.** The signature of `m` with key `x` and nonce `k` is `k + e·x` modulo the group order and the point
`k • g`, where the 32 bytes of `e`, most significant first, are the SHA-256 hash. -/
theorem C117_made (L : LawfulCurve E Γ φ g h) (P : Γ) (x k : Nat) (m : Bytes) (e : Nat) (he : e < 2 ^ 256)
    (hd : E.sha256 (hashedForChallenge (φ (k • g)) (φ P) m) = be 32 e) :
    signMessage E (φ P) x m k = ⟨(k + e * x) % N, φ (k • g)⟩ := by
  have hR : E.smul G k = φ (k • g) := by rw [← L.gen, L.mul]
  unfold signMessage
  simp only [hR, challenge_eq L P (k • g) m e he hd, L.ssum, L.smulS, Nat.add_mod_mod]

/-- **C117, the part that holds.** A signature is accepted if and only if `s • g` is `r + e • P` or its opposite. -/
theorem C117_equation_partial (L : LawfulCurve E Γ φ g h) (P r : Γ) (m : Bytes) (s e : Nat) (he : e < 2 ^ 256)
    (hd : E.sha256 (hashedForChallenge (φ r) (φ P) m) = be 32 e) :
    verifySignature E (φ P) m ⟨s, φ r⟩ = true ↔ s • g = r + e • P ∨ s • g = -(r + e • P) := by
  rw [verify_iff L, challenge_eq L P r m e he hd]

/-- **C117 is false of the code.** Whoever has a signature that satisfies the equation has one that is accepted and does
not satisfy it. -/
theorem C117_refuted (L : LawfulCurve E Γ φ g h) (P r : Γ) (m : Bytes) (s e : Nat) (he : e < 2 ^ 256)
    (hd : E.sha256 (hashedForChallenge (φ r) (φ P) m) = be 32 e) (hs : 0 < s) (hsN : s < N) (heq : s • g = r + e • P) :
    verifySignature E (φ P) m ⟨N - s, φ r⟩ = true ∧ (N - s) • g ≠ r + e • P := by
  have e1 : (N - s) • g = -(s • g) := by
    rw [eq_neg_iff_add_eq_zero, ← add_smul, Nat.sub_add_cancel (Nat.le_of_lt hsN), L.order]
  refine ⟨(C117_equation_partial L P r m _ e he hd).2 (.inr (by rw [e1, heq])), fun h2 => ?_⟩
  have h3 : (2 * s) • g = 0 := by
    rw [two_mul, add_smul]
    nth_rw 1 [heq]
    rw [← h2, e1, neg_add_cancel]
  obtain ⟨c, hc⟩ := L.genOrder _ h3
  have hodd : N % 2 = 1 := by decide
  have hc2 : c < 2 := by
    by_contra hge
    have : N * 2 ≤ N * c := Nat.mul_le_mul_left N (by omega)
    omega
  rcases (by omega : c = 0 ∨ c = 1) with rfl | rfl <;> omega

end

/-- **C72**, messages. -/
theorem C72_message_injective (f1 l1 f2 l2 : UInt64) (h : computeMessage f1 l1 = computeMessage f2 l2) :
    f1 = f2 ∧ l1 = l2 := by
  unfold computeMessage at h
  have h1 := List.append_inj h (by simp)
  have h2 := List.append_inj h1.1 (by simp)
  refine ⟨?_, ?_⟩
  · exact UInt64.toNat_inj.1 (be_inj (UInt64.toNat_lt _) (UInt64.toNat_lt _) h2.2)
  · exact UInt64.toNat_inj.1 (be_inj (UInt64.toNat_lt _) (UInt64.toNat_lt _) h1.2)

theorem C72_message_length (f l : UInt64) : (computeMessage f l).length = 32 := by
  simp [computeMessage]

/-- **C72**, challenge: the hashed bytes determine the nonce point's abscissa, the key's abscissa and parity
and the message. -/
theorem C72_challenge_injective (E : Env) (hb : ∀ x, x < 2 ^ 256 → E.getB32 x = be 32 x)
    (R1 P1 R2 P2 : Point) (m1 m2 : Bytes)
    (hR1 : R1.X < 2 ^ 256) (hP1 : P1.X < 2 ^ 256) (hR2 : R2.X < 2 ^ 256) (hP2 : P2.X < 2 ^ 256)
    (h : challengeInput E R1 P1 m1 = challengeInput E R2 P2 m2) :
    R1.X = R2.X ∧ P1.X = P2.X ∧ P1.Y % 2 = P2.Y % 2 ∧ m1 = m2 := by
  unfold challengeInput compressPubkey at h
  rw [hb _ hR1, hb _ hR2, hb _ hP1, hb _ hP2] at h
  have h1 := List.append_inj h (by simp [be_length])
  have h2 := List.append_inj h1.1 (by simp [be_length])
  have h3 := List.cons_eq_cons.1 h2.2
  have h256 : (256 : Nat) ^ 32 = 2 ^ 256 := by decide
  refine ⟨be_inj (by rw [h256]; exact hR1) (by rw [h256]; exact hR2) h2.1,
    be_inj (by rw [h256]; exact hP1) (by rw [h256]; exact hP2) h3.2, ?_, h1.2⟩
  have ht := h3.1
  have e1 := Nat.mod_two_eq_zero_or_one P1.Y
  have e2 := Nat.mod_two_eq_zero_or_one P2.Y
  by_cases a : P1.Y % 2 = 1 <;> by_cases b : P2.Y % 2 = 1 <;> simp [a, b] at ht <;> omega

/-- **C74, the part that holds**: what `RandomInt` returns is at most `N`. -/
theorem C74_bound_partial (draws : List Bytes) (r : Nat) (h : randomInt draws = some r) : r ≤ N := by
  induction draws with
  | nil => cases h
  | cons b t ih =>
    rw [randomInt] at h
    split at h
    · exact ih h
    · cases h; omega

/-- **C74 is false of the code**: if the random bytes spell the group order, the order itself is returned,
which is not a scalar below `N`. It is returned for no other reason. -/
theorem C74_refuted (draws : List Bytes) : randomInt (be 32 N :: draws) = some N := by
  have : ofBE (be 32 N) = N := by rw [ofBE_be]; decide
  rw [randomInt, this, if_neg (Nat.lt_irrefl _)]

/-- The draws are used in order and the first one not above `N` is returned. -/
theorem C74_first (pre : List Bytes) (b : Bytes) (post : List Bytes) (hpre : ∀ x ∈ pre, N < ofBE x)
    (hb : ofBE b ≤ N) : randomInt (pre ++ b :: post) = some (ofBE b) := by
  induction pre with
  | nil => rw [List.nil_append, randomInt, if_neg (by omega)]
  | cons a t ih =>
    rw [List.cons_append, randomInt, if_pos (hpre a (List.mem_cons_self ..))]
    exact ih (fun x hx => hpre x (List.mem_cons_of_mem _ hx))

end Gringo.Props
