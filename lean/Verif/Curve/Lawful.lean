import Verif.Curve.Group
import Verif.Spec.Curve
import Verif.Spec.Assumptions
import Verif.Proofs.Codec
/-
secp256k1 meets what the theorems assume about the curve library: the environment of Verif/Concrete/Secp.lean
satisfies `LawfulCurve` and `PointCodec`.
-/
namespace Gringo.Curve
open Gringo.Concrete WeierstrassCurve

theorem on_curve (q : Point) (h : q.Y ^ 2 % Concrete.p = (q.X ^ 3 + 7) % Concrete.p) :
    W.Nonsingular (q.X : F) (q.Y : F) := by
  rw [nonsingular_iff]
  have := (ZMod.natCast_eq_natCast_iff' _ _ Concrete.p).2 h
  push_cast at this
  exact this

/-- The point with the coordinates `q`. -/
def ofCoords (q : Point) (h : q.Y ^ 2 % Concrete.p = (q.X ^ 3 + 7) % Concrete.p) : W.Point :=
  .some (q.X : F) (q.Y : F) (on_curve q h)

theorem coords_ofCoords (q : Point) (h) (hx : q.X < Concrete.p) (hy : q.Y < Concrete.p) :
    coords (ofCoords q h) = q := by
  rw [ofCoords, coords_some, ZMod.val_natCast_of_lt hx, ZMod.val_natCast_of_lt hy]

/-- The order of a point, by computation. -/
theorem order_of_coords (P : W.Point) (h : (Jac.mul 256 (Jac.ofPoint (coords P)) Secp.N ⟨1, 1, 0⟩).z = 0) :
    Secp.N • P = 0 := by
  have hr := rep_mul 256 Secp.N (by decide) (rep_ofPoint P) rep_infinity
  rw [zero_add] at hr
  generalize Secp.N • P = Q at hr
  generalize Jac.mul 256 (Jac.ofPoint (coords P)) Secp.N ⟨1, 1, 0⟩ = q at hr h
  cases hr with
  | zero _ _ => rfl
  | some x y hn hs hz hx hy => exact absurd (by rw [h, Nat.cast_zero]) hz

theorem G_on_curve : Secp.G.Y ^ 2 % Concrete.p = (Secp.G.X ^ 3 + 7) % Concrete.p := by decide +kernel

theorem H_on_curve : Secp.H.Y ^ 2 % Concrete.p = (Secp.H.X ^ 3 + 7) % Concrete.p := by decide +kernel

/-- The points whose order divides `N`. (These are all points; that the curve has exactly `N` points is not
needed.) -/
def Γ : AddSubgroup W.Point := (nsmulAddMonoidHom Secp.N).ker

theorem mem_Γ (P : W.Point) : P ∈ Γ ↔ Secp.N • P = 0 := Iff.rfl

def φ (a : Γ) : Point := coords a.1

theorem coords_G : coords (ofCoords Secp.G G_on_curve) = Secp.G := coords_ofCoords _ _ (by decide) (by decide)

theorem coords_H : coords (ofCoords Secp.H H_on_curve) = Secp.H := coords_ofCoords _ _ (by decide) (by decide)

/-- The generator. -/
def g : Γ := ⟨ofCoords Secp.G G_on_curve, order_of_coords _ (by rw [coords_G]; decide +kernel)⟩

/-- The second generator, for values. -/
def h : Γ := ⟨ofCoords Secp.H H_on_curve, order_of_coords _ (by rw [coords_H]; decide +kernel)⟩

theorem g_ne_zero : g ≠ 0 := by
  intro h0
  have h1 : (ofCoords Secp.G G_on_curve : W.Point) = 0 := congrArg Subtype.val h0
  cases h1

theorem neg_coords_Y (P : W.Point) (y : F) (x : F) (hn) (hP : P = .some x y hn) : (coords (-P)).Y = (-y).val := by
  subst hP
  rw [Affine.Point.neg_some, coords_some, negY_eq]

theorem root_coords (P : W.Point) (h0 : P ≠ 0) :
    Concrete.modSqrt ((coords P).X * (coords P).X * (coords P).X + 7) = (coords P).Y ∨
    Concrete.modSqrt ((coords P).X * (coords P).X * (coords P).X + 7) = (coords (-P)).Y := by
  cases P with
  | zero => exact absurd rfl h0
  | some x y hn =>
    rw [neg_coords_Y _ y x hn rfl, coords_some]
    have hsq : ((x.val * x.val * x.val + 7 : Nat) : F) = y ^ 2 := by
      push_cast
      rw [cast_val, (nonsingular_iff x y).1 hn]
      ring
    dsimp only
    generalize x.val * x.val * x.val + 7 = n at hsq
    rw [← cast_inj (modSqrt_lt _) (val_lt y), ← cast_inj (modSqrt_lt _) (val_lt (-y)), cast_val, cast_val]
    exact modSqrt_sq _ _ hsq

set_option maxRecDepth 100000 in
/-- **secp256k1 is lawful.** -/
theorem lawful : LawfulCurve Concrete.env Γ φ g h where
  add a b := padd_coords a.1 b.1
  mul a k := by
    show Concrete.smul (coords a.1) k = coords (k • a : Γ).1
    rw [smul_coords _ a.2, AddSubgroup.coe_nsmul]
  gen := coords_G
  genH := coords_H
  order a := Subtype.ext (by rw [AddSubgroup.coe_nsmul]; exact a.2)
  genOrder k hk := by
    have h1 : addOrderOf g ∣ k := addOrderOf_dvd_of_nsmul_eq_zero hk
    have h2 : addOrderOf g ∣ Secp.N :=
      addOrderOf_dvd_of_nsmul_eq_zero (Subtype.ext (by rw [AddSubgroup.coe_nsmul]; exact g.2))
    rcases (Nat.dvd_prime prime_N).1 h2 with h3 | h3
    · exact absurd (AddMonoid.addOrderOf_eq_one_iff.1 h3) g_ne_zero
    · rw [← h3]; exact h1
  inj a b hab := Subtype.ext (coords_injective hab)
  abscissa a b := by
    show (coords a.1).X = (coords b.1).X ↔ _
    rw [coords_x]
    constructor
    · rintro (hh | hh)
      · exact .inl (Subtype.ext hh)
      · exact .inr (Subtype.ext hh)
    · rintro (hh | hh)
      · exact .inl (congrArg Subtype.val hh)
      · exact .inr (congrArg Subtype.val hh)
  small a := by
    have hp : Concrete.p < 2 ^ 256 := by decide
    obtain ⟨P, hP⟩ := a
    cases P with
    | zero => show (0 : Nat) < 2 ^ 256; decide
    | some x y hn => exact Nat.lt_trans (val_lt x) hp
  root a ha := root_coords a.1 (fun h0 => ha (Subtype.ext h0))
  ssum _ _ := rfl
  smulS _ _ := rfl
  b32 _ _ := rfl

end Gringo.Curve
