import Verif.Curve.Field
import Mathlib.AlgebraicGeometry.EllipticCurve.Affine.Point
import Mathlib.Tactic.FieldSimp
import Mathlib.Tactic.LinearCombination
/-
The point operations of Verif/Concrete/Secp.lean (Jacobian coordinates, double and add) implement the group
of the elliptic curve `y² = x³ + 7`.
-/
namespace Gringo.Curve
open Gringo.Concrete WeierstrassCurve

/-- secp256k1 -/
def W : Affine F := { a₁ := 0, a₂ := 0, a₃ := 0, a₄ := 0, a₆ := 7 }

theorem two_ne : (2 : F) ≠ 0 := by
  have h : ((2 : Nat) : F) ≠ 0 := by rw [Ne, cast_zero (by decide)]; decide
  simpa using h

theorem seven_ne : (7 : F) ≠ 0 := by
  have h : ((7 : Nat) : F) ≠ 0 := by rw [Ne, cast_zero (by decide)]; decide
  simpa using h

theorem three_ne : (3 : F) ≠ 0 := by
  have h : ((3 : Nat) : F) ≠ 0 := by rw [Ne, cast_zero (by decide)]; decide
  simpa using h

theorem equation_iff (x y : F) : W.Equation x y ↔ y ^ 2 = x ^ 3 + 7 := by
  rw [Affine.equation_iff]; simp [W]

theorem nonsingular_iff (x y : F) : W.Nonsingular x y ↔ y ^ 2 = x ^ 3 + 7 := by
  rw [Affine.nonsingular_iff, equation_iff]
  refine ⟨fun h => h.1, fun h => ⟨h, ?_⟩⟩
  simp only [W, zero_mul, mul_zero, add_zero, sub_zero]
  by_contra hc
  push Not at hc
  obtain ⟨h1, h2⟩ := hc
  have hy : y = 0 := by
    have : 2 * y = 0 := by linear_combination h2
    exact (mul_eq_zero.1 this).resolve_left two_ne
  have hx : x = 0 := by
    have h3 : 3 * x ^ 2 = 0 := h1.symm
    exact pow_eq_zero_iff (two_ne_zero) |>.1 ((mul_eq_zero.1 h3).resolve_left three_ne)
  rw [hy, hx] at h
  exact seven_ne (by linear_combination -h)

theorem negY_eq (x y : F) : W.negY x y = -y := by simp [W, Affine.negY]

/-- Reduced coordinates. -/
def Small (q : Jac) : Prop := q.x < Concrete.p ∧ q.y < Concrete.p ∧ q.z < Concrete.p

/-- `q` are Jacobian coordinates of `P`. -/
inductive Rep : Jac → W.Point → Prop
  | zero (q : Jac) (hs : Small q) (hz : q.z = 0) : Rep q 0
  | some (q : Jac) (x y : F) (h : W.Nonsingular x y) (hs : Small q) (hz : (q.z : F) ≠ 0)
      (hx : (q.x : F) = x * (q.z : F) ^ 2) (hy : (q.y : F) = y * (q.z : F) ^ 3) : Rep q (.some x y h)

theorem rep_infinity : Rep ⟨1, 1, 0⟩ 0 := .zero _ ⟨by decide, by decide, by decide⟩ rfl

theorem Rep.small {q : Jac} {P : W.Point} (h : Rep q P) : Small q := by cases h <;> assumption

theorem mod_lt_p (x : Nat) : x % Concrete.p < Concrete.p := Nat.mod_lt _ p_pos

/-- Doubling. -/
theorem rep_dbl {q : Jac} {P : W.Point} (h : Rep q P) : Rep q.dbl (P + P) := by
  cases h with
  | zero hs hz =>
    rw [Jac.dbl, if_pos (.inl hz), add_zero]
    exact rep_infinity
  | some x y hn hs hz hx hy =>
    have hz' : q.z ≠ 0 := fun h => hz (by rw [h, Nat.cast_zero])
    by_cases h0 : q.y = 0
    · rw [Jac.dbl, if_pos (.inr h0)]
      have : y = 0 := by
        rw [h0, Nat.cast_zero] at hy
        exact (mul_eq_zero.1 hy.symm).resolve_right (pow_ne_zero 3 hz)
      rw [Affine.Point.add_of_Y_eq rfl (by rw [negY_eq, this, neg_zero])]
      exact rep_infinity
    · have hy0 : y ≠ 0 := by
        rintro rfl
        rw [zero_mul, cast_zero hs.2.1] at hy
        exact h0 hy
      have hne : y ≠ W.negY x y := by
        rw [negY_eq]
        intro h
        have : 2 * y = 0 := by linear_combination h
        exact hy0 ((mul_eq_zero.1 this).resolve_left two_ne)
      rw [Affine.Point.add_of_Y_ne hne, Jac.dbl, if_neg (by tauto)]
      refine Rep.some _ _ _ _ ⟨sub_lt _ _, sub_lt _ _, mod_lt_p _⟩ ?_ ?_ ?_
      · simp only [cast_mod]
        push_cast
        rw [hy]
        exact mul_ne_zero (mul_ne_zero two_ne (mul_ne_zero hy0 (pow_ne_zero 3 hz))) hz
      · simp only [sub_cast _ _ (mod_lt_p _), cast_mod, Nat.cast_mul, Nat.cast_add, Nat.cast_ofNat, hx, hy]
        simp only [Affine.addX, Affine.slope_of_Y_ne rfl hne, negY_eq]
        simp only [W]
        have := two_ne
        rw [sub_neg_eq_add, ← two_mul]
        field_simp
        ring
      · simp only [sub_cast _ _ (mod_lt_p _), sub_cast _ _ (sub_lt _ _), cast_mod, Nat.cast_mul, Nat.cast_add,
          Nat.cast_ofNat, hx, hy]
        simp only [Affine.addY, Affine.negAddY, Affine.addX, Affine.slope_of_Y_ne rfl hne, negY_eq]
        simp only [W]
        have := two_ne
        rw [sub_neg_eq_add, ← two_mul]
        field_simp
        ring

/-- Addition. -/
theorem rep_add {q r : Jac} {P Q : W.Point} (h : Rep q P) (h' : Rep r Q) : Rep (q.add r) (P + Q) := by
  cases h with
  | zero hs hz => rw [Jac.add, if_pos hz, zero_add]; exact h'
  | some x y hn hs hz hx hy =>
    have hqz : q.z ≠ 0 := fun h => hz (by rw [h, Nat.cast_zero])
    rw [Jac.add, if_neg hqz]
    have h1 : Rep q (.some x y hn) := .some q x y hn hs hz hx hy
    cases h' with
    | zero hs' hz' => rw [if_pos hz', add_zero]; exact h1
    | some x' y' hn' hs' hz' hx' hy' =>
      have hrz : r.z ≠ 0 := fun h => hz' (by rw [h, Nat.cast_zero])
      rw [if_neg hrz]
      have hu : (q.x * (r.z * r.z % Concrete.p) % Concrete.p = r.x * (q.z * q.z % Concrete.p) % Concrete.p) ↔ x = x' := by
        rw [← cast_inj (mod_lt_p _) (mod_lt_p _)]
        simp only [cast_mod, Nat.cast_mul, hx, hx']
        constructor
        · intro h
          have hne : ((q.z : F) ^ 2 * (r.z : F) ^ 2) ≠ 0 := mul_ne_zero (pow_ne_zero 2 hz) (pow_ne_zero 2 hz')
          exact mul_right_cancel₀ hne (by linear_combination h)
        · rintro rfl; ring
      have hv : (q.y * r.z * (r.z * r.z % Concrete.p) % Concrete.p = r.y * q.z * (q.z * q.z % Concrete.p) % Concrete.p)
          ↔ y = y' := by
        rw [← cast_inj (mod_lt_p _) (mod_lt_p _)]
        simp only [cast_mod, Nat.cast_mul, hy, hy']
        constructor
        · intro h
          have hne : ((q.z : F) ^ 3 * (r.z : F) ^ 3) ≠ 0 := mul_ne_zero (pow_ne_zero 3 hz) (pow_ne_zero 3 hz')
          exact mul_right_cancel₀ hne (by linear_combination h)
        · rintro rfl; ring
      by_cases hxx : x = x'
      · rw [if_pos (hu.2 hxx)]
        by_cases hyy : y = y'
        · rw [if_pos (hv.2 hyy)]
          subst hxx hyy
          exact rep_dbl h1
        · rw [if_neg (fun h => hyy (hv.1 h))]
          have hopp : y = W.negY x' y' :=
            (Affine.Y_eq_of_X_eq hn.1 hn'.1 hxx).resolve_left hyy
          rw [Affine.Point.add_of_Y_eq hxx hopp]
          exact rep_infinity
      · rw [if_neg (fun h => hxx (hu.1 h)), Affine.Point.add_of_X_ne hxx]
        have hd : x - x' ≠ 0 := sub_ne_zero.2 hxx
        have hd' : x' * (r.z : F) ^ 2 * (q.z : F) ^ 2 - x * (q.z : F) ^ 2 * (r.z : F) ^ 2 ≠ 0 := by
          have : x' * (r.z : F) ^ 2 * (q.z : F) ^ 2 - x * (q.z : F) ^ 2 * (r.z : F) ^ 2 =
            -((x - x') * (q.z : F) ^ 2 * (r.z : F) ^ 2) := by ring
          rw [this]
          exact neg_ne_zero.2 (mul_ne_zero (mul_ne_zero hd (pow_ne_zero 2 hz)) (pow_ne_zero 2 hz'))
        refine Rep.some _ _ _ _ ⟨sub_lt _ _, sub_lt _ _, mod_lt_p _⟩ ?_ ?_ ?_
        · simp only [sub_cast _ _ (mod_lt_p _), cast_mod, Nat.cast_mul, hx, hx']
          refine mul_ne_zero (mul_ne_zero hz hz') ?_
          convert hd' using 1
          ring
        · simp only [sub_cast _ _ (mod_lt_p _), cast_mod, Nat.cast_mul, Nat.cast_ofNat, hx, hx', hy, hy']
          simp only [Affine.addX, Affine.slope_of_X_ne hxx]
          simp only [W]
          field_simp
          ring
        · simp only [sub_cast _ _ (mod_lt_p _), sub_cast _ _ (sub_lt _ _), cast_mod, Nat.cast_mul, Nat.cast_ofNat,
            hx, hx', hy, hy']
          simp only [Affine.addY, Affine.negAddY, Affine.addX, Affine.slope_of_X_ne hxx, negY_eq]
          simp only [W]
          field_simp
          ring

/-- Double and add. -/
theorem rep_mul (n : Nat) {q acc : Jac} {P A : W.Point} (k : Nat) (hk : k < 2 ^ n) (h : Rep q P) (ha : Rep acc A) :
    Rep (Jac.mul n q k acc) (A + k • P) := by
  induction n generalizing q acc P A k with
  | zero =>
    have : k = 0 := by simpa using hk
    subst this
    rw [Jac.mul, zero_nsmul, add_zero]
    exact ha
  | succ n ih =>
    rw [Jac.mul]
    have hk' : k / 2 < 2 ^ n := by rw [Nat.pow_succ] at hk; omega
    have e : (k / 2) • (P + P) = (2 * (k / 2)) • P := by rw [← two_nsmul, ← mul_smul, mul_comm]
    by_cases h2 : k % 2 = 1
    · rw [if_pos h2]
      have := ih (k / 2) hk' (rep_dbl h) (rep_add ha h)
      rw [e, add_assoc, ← succ_nsmul', show 2 * (k / 2) + 1 = k by omega] at this
      exact this
    · rw [if_neg h2]
      have := ih (k / 2) hk' (rep_dbl h) ha
      rw [e, show 2 * (k / 2) = k by omega] at this
      exact this

/-- The coordinates of a point; infinity is `(0, 0)`. -/
def coords : W.Point → Point
  | .zero => ⟨0, 0⟩
  | .some x y _ => ⟨x.val, y.val⟩

theorem coords_zero : coords 0 = ⟨0, 0⟩ := rfl

theorem coords_some {x y : F} (h : W.Nonsingular x y) : coords (.some x y h) = ⟨x.val, y.val⟩ := rfl

theorem cast_val (x : F) : ((x.val : Nat) : F) = x := ZMod.natCast_zmod_val x

theorem val_lt (x : F) : x.val < Concrete.p := ZMod.val_lt x

/-- No finite point has abscissa 0. -/
theorem x_ne_zero {x y : F} (h : W.Nonsingular x y) : x ≠ 0 := by
  rintro rfl
  rw [nonsingular_iff] at h
  exact seven_not_square y (by rw [h]; ring)

theorem rep_ofPoint (P : W.Point) : Rep (Jac.ofPoint (coords P)) P := by
  cases P with
  | zero =>
    rw [show coords (.zero : W.Point) = ⟨0, 0⟩ from rfl, Jac.ofPoint, if_pos rfl]
    exact rep_infinity
  | some x y h =>
    have hx : x.val ≠ 0 := fun h0 => x_ne_zero h ((ZMod.val_eq_zero x).1 h0)
    rw [show coords (.some x y h : W.Point) = ⟨x.val, y.val⟩ from rfl, Jac.ofPoint,
      if_neg (by intro h0; injection h0 with h0 _; exact hx h0)]
    refine .some _ x y h ⟨val_lt x, val_lt y, (by decide : 1 < Concrete.p)⟩ ?_ ?_ ?_
    · simp
    · simp
    · simp

theorem toPoint_of_rep {q : Jac} {P : W.Point} (h : Rep q P) : q.toPoint = coords P := by
  cases h with
  | zero hs hz => rw [Jac.toPoint, if_pos hz, coords_zero]
  | some x y hn hs hz hx hy =>
    have hqz : q.z ≠ 0 := fun h => hz (by rw [h, Nat.cast_zero])
    rw [Jac.toPoint, if_neg hqz]
    rw [coords_some]
    refine congrArg₂ Point.mk ?_ ?_
    · rw [← cast_inj (mod_lt_p _) (val_lt x)]
      simp only [cast_mod, Nat.cast_mul, inv_cast, cast_val, hx]
      field_simp
    · rw [← cast_inj (mod_lt_p _) (val_lt y)]
      simp only [cast_mod, Nat.cast_mul, inv_cast, cast_val, hy]
      field_simp

/-- The point sum of the concrete environment is the group operation of the curve. -/
theorem padd_coords (P Q : W.Point) : Concrete.padd (coords P) (coords Q) = coords (P + Q) :=
  toPoint_of_rep (rep_add (rep_ofPoint P) (rep_ofPoint Q))

/-- The multiple of a point, for points whose order divides `N`. -/
theorem smul_coords (P : W.Point) (hP : Secp.N • P = 0) (k : Nat) :
    Concrete.smul (coords P) k = coords (k • P) := by
  have hlt : k % Secp.N < 2 ^ 256 := Nat.lt_trans (Nat.mod_lt _ (by decide)) (by decide)
  have h := toPoint_of_rep (rep_mul 256 (k % Secp.N) hlt (rep_ofPoint P) rep_infinity)
  rw [zero_add] at h
  have e : (k % Secp.N) • P = k • P := by
    conv => rhs; rw [← Nat.mod_add_div k Secp.N, add_nsmul, mul_comm, mul_nsmul', hP, nsmul_zero, add_zero]
  rw [e] at h
  exact h

theorem coords_injective : Function.Injective coords := by
  intro P Q h
  cases P with
  | zero =>
    cases Q with
    | zero => rfl
    | some x y hn =>
      injection h with h _
      exact absurd ((ZMod.val_eq_zero x).1 h.symm) (x_ne_zero hn)
  | some x y hn =>
    cases Q with
    | zero =>
      injection h with h _
      exact absurd ((ZMod.val_eq_zero x).1 h) (x_ne_zero hn)
    | some x' y' hn' =>
      injection h with h1 h2
      have e1 := ZMod.val_injective _ h1
      have e2 := ZMod.val_injective _ h2
      subst e1 e2
      rfl

theorem coords_x (P Q : W.Point) : (coords P).X = (coords Q).X ↔ P = Q ∨ P = -Q := by
  cases P with
  | zero =>
    cases Q with
    | zero => exact ⟨fun _ => .inl rfl, fun _ => rfl⟩
    | some x y hn =>
      refine ⟨fun h => absurd ((ZMod.val_eq_zero x).1 h.symm) (x_ne_zero hn), ?_⟩
      rintro (h | h)
      · cases h
      · rw [Affine.Point.neg_some] at h; cases h
  | some x y hn =>
    cases Q with
    | zero =>
      refine ⟨fun h => absurd ((ZMod.val_eq_zero x).1 h) (x_ne_zero hn), ?_⟩
      rintro (h | h) <;> cases h
    | some x' y' hn' =>
      rw [← Affine.Point.X_eq_iff]
      exact ⟨fun h => ZMod.val_injective _ h, fun h => congrArg ZMod.val h⟩

end Gringo.Curve
