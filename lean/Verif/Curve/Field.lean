import Verif.Curve.Prime
import Mathlib.FieldTheory.Finite.Basic
/-
The modular arithmetic of Verif/Concrete/Secp.lean computes in the prime field.
-/
namespace Gringo.Curve
open Gringo.Concrete

instance : Fact (Nat.Prime Concrete.p) := ⟨prime_p⟩

abbrev F := ZMod Concrete.p

theorem p_pos : 0 < Concrete.p := prime_p.pos

theorem powMod_eq (n b e acc : Nat) : powMod n b e acc = pow Concrete.p n b e acc := by
  induction n generalizing b e acc with
  | zero => rfl
  | succ n ih => rw [powMod, pow, ih]

theorem powMod_lt (n b e acc : Nat) (h : acc < Concrete.p) : powMod n b e acc < Concrete.p := by
  induction n generalizing b e acc with
  | zero => exact h
  | succ n ih =>
    rw [powMod]
    apply ih
    split
    · exact Nat.mod_lt _ p_pos
    · exact h

theorem powMod_cast (b e acc : Nat) (h : e < 2 ^ 256) : (powMod 256 b e acc : F) = acc * (b : F) ^ e := by
  rw [powMod_eq, pow_cast _ _ _ _ _ h]

theorem cast_mod (x : Nat) : ((x % Concrete.p : Nat) : F) = x := ZMod.natCast_mod x _

theorem cast_inj {a b : Nat} (ha : a < Concrete.p) (hb : b < Concrete.p) : (a : F) = b ↔ a = b := by
  rw [ZMod.natCast_eq_natCast_iff', Nat.mod_eq_of_lt ha, Nat.mod_eq_of_lt hb]

theorem cast_zero {a : Nat} (ha : a < Concrete.p) : (a : F) = 0 ↔ a = 0 := by
  have := cast_inj ha p_pos
  simpa using this

theorem inv_cast (x : Nat) : (inv x : F) = (x : F)⁻¹ := by
  rw [inv, powMod_cast _ _ _ (by decide), cast_mod, Nat.cast_one, one_mul]
  by_cases h : (x : F) = 0
  · rw [h, inv_zero, zero_pow (by decide)]
  · have h1 : (x : F) ^ (Concrete.p - 1) = 1 := ZMod.pow_card_sub_one_eq_one h
    have h2 : Concrete.p - 1 = Concrete.p - 2 + 1 := by decide
    rw [h2, pow_succ] at h1
    exact eq_inv_of_mul_eq_one_left h1

theorem modSqrt_cast (x : Nat) : (modSqrt x : F) = (x : F) ^ ((Concrete.p + 1) / 4) := by
  rw [modSqrt, powMod_cast _ _ _ (by decide), cast_mod, Nat.cast_one, one_mul]

theorem modSqrt_lt (x : Nat) : modSqrt x < Concrete.p := powMod_lt _ _ _ _ (by decide)

/-- The root of a square is one of its two roots. -/
theorem modSqrt_sq (x : Nat) (y : F) (h : (x : F) = y ^ 2) : (modSqrt x : F) = y ∨ (modSqrt x : F) = -y := by
  rw [modSqrt_cast, h, ← pow_mul]
  have e : 2 * ((Concrete.p + 1) / 4) = (Concrete.p - 1) / 2 + 1 := by decide
  rw [e, pow_succ]
  by_cases hy : y = 0
  · left; rw [hy, mul_zero]
  have h1 : (y ^ ((Concrete.p - 1) / 2)) ^ 2 = 1 := by
    rw [← pow_mul, show (Concrete.p - 1) / 2 * 2 = Concrete.p - 1 by decide]
    exact ZMod.pow_card_sub_one_eq_one hy
  rcases mul_self_eq_one_iff.1 ((sq _).symm.trans h1) with h2 | h2
  · left; rw [h2, one_mul]
  · right; rw [h2, neg_one_mul]

/-- 7 is not a square. -/
theorem seven_not_square (y : F) : y ^ 2 ≠ 7 := by
  intro h
  have h1 : y ≠ 0 := by
    rintro rfl
    have : ((7 : Nat) : F) = 0 := by rw [Nat.cast_ofNat, ← h]; ring
    rw [cast_zero (by decide)] at this
    exact absurd this (by decide)
  have h2 : (y ^ 2) ^ ((Concrete.p - 1) / 2) = 1 := by
    rw [← pow_mul, show 2 * ((Concrete.p - 1) / 2) = Concrete.p - 1 by decide]
    exact ZMod.pow_card_sub_one_eq_one h1
  rw [h] at h2
  have h3 := powMod_cast 7 ((Concrete.p - 1) / 2) 1 (by decide)
  rw [Nat.cast_one, one_mul, Nat.cast_ofNat, h2] at h3
  have h4 : powMod 256 7 ((Concrete.p - 1) / 2) 1 = 1 := by
    rw [← cast_inj (powMod_lt _ _ _ _ (by decide)) (by decide), h3, Nat.cast_one]
  exact absurd h4 (by decide +kernel)

theorem sub_lt (a b : Nat) : Concrete.sub a b < Concrete.p := Nat.mod_lt _ p_pos

theorem sub_cast (a b : Nat) (hb : b < Concrete.p) : (Concrete.sub a b : F) = a - b := by
  rw [Concrete.sub, cast_mod, Nat.cast_add, Nat.cast_sub (Nat.le_of_lt hb), ZMod.natCast_self]
  ring

end Gringo.Curve
