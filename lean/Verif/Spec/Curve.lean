import Verif.Model.Schnorr
import Mathlib.Algebra.Module.NatInt
/-
What the signature theorems assume about the curve library (github.com/yoss22/bulletproofs): its point and
scalar operations implement a group whose elements are represented by affine coordinates. Instances are in
Verif/Curve.
-/
namespace Gringo

/-- The point operations implement the group `Γ` through the coordinates `φ`, scalars are taken modulo the
group order `N`, and `g`, `h` are the elements with the coordinates `G`, `H`. -/
structure LawfulCurve (E : Env) (Γ : Type) [AddCommGroup Γ] (φ : Γ → Point) (g h : Γ) : Prop where
  /-- `SumPoints` is the group operation. -/
  add : ∀ a b, E.padd (φ a) (φ b) = φ (a + b)
  /-- `ScalarMulPoint` is repeated addition. -/
  mul : ∀ a (k : Nat), E.smul (φ a) k = φ (k • a)
  gen : φ g = Secp.G
  genH : φ h = Secp.H
  /-- The order of every element divides `N`. -/
  order : ∀ a : Γ, Secp.N • a = 0
  /-- The generator has order `N`. -/
  genOrder : ∀ k : Nat, k • g = 0 → Secp.N ∣ k
  /-- Coordinates determine the element. -/
  inj : Function.Injective φ
  /-- The abscissa determines the element up to sign, and opposite elements have the same. -/
  abscissa : ∀ a b, (φ a).X = (φ b).X ↔ a = b ∨ a = -b
  /-- Coordinates have at most 256 bits. -/
  small : ∀ a, (φ a).X < 2 ^ 256
  /-- `ModSqrtFast` applied to `X³ + 7` gives the ordinate of the element or of its opposite, for every
  element but the neutral one. -/
  root : ∀ a, a ≠ 0 → E.modSqrt ((φ a).X * (φ a).X * (φ a).X + 7) = (φ a).Y ∨
    E.modSqrt ((φ a).X * (φ a).X * (φ a).X + 7) = (φ (-a)).Y
  /-- `Sum` and `Mul` on scalars are addition and multiplication modulo `N`. -/
  ssum : ∀ a b, E.ssum a b = (a + b) % Secp.N
  smulS : ∀ a b, E.smulS a b = a * b % Secp.N
  /-- `GetB32` is the 32-byte big-endian form. -/
  b32 : ∀ x, x < 2 ^ 256 → E.getB32 x = be 32 x

end Gringo
