import Verif.Concrete.Secp
import Mathlib.NumberTheory.LucasPrimality
import Mathlib.Tactic.NormNum.Prime
/-
The field prime and the group order of secp256k1 are prime: Lucas certificates, checked by the kernel.
-/
namespace Gringo.Curve

/-- `b ^ e % m` by square and multiply; the first argument bounds the number of bits of `e`. -/
def pow (m : Nat) : Nat → Nat → Nat → Nat → Nat
  | 0, _, _, acc => acc
  | n + 1, b, e, acc => pow m n (b * b % m) (e / 2) (if e % 2 = 1 then acc * b % m else acc)

theorem pow_cast (m n b e acc : Nat) (h : e < 2 ^ n) : (pow m n b e acc : ZMod m) = acc * (b : ZMod m) ^ e := by
  induction n generalizing b e acc with
  | zero =>
    have : e = 0 := by simpa using h
    subst this
    simp [pow]
  | succ n ih =>
    rw [pow, ih _ _ _ (by rw [Nat.pow_succ] at h; omega)]
    have hb : ((b * b % m : Nat) : ZMod m) = (b : ZMod m) ^ 2 := by
      rw [ZMod.natCast_mod]; push_cast; ring
    rw [hb, ← pow_mul]
    by_cases he : e % 2 = 1
    · rw [if_pos he, ZMod.natCast_mod]
      push_cast
      rw [mul_assoc, ← pow_succ']
      congr 2
      omega
    · rw [if_neg he]
      congr 2
      omega

/-- The certificate: `a` has order `p - 1`, whose prime factors are given. -/
def certifies (p a : Nat) (factors : List Nat) : Bool :=
  decide (1 < p) && decide (p < 2 ^ 256) && factors.prod == p - 1 && pow p 256 a (p - 1) 1 == 1 &&
    factors.all fun q => pow p 256 a ((p - 1) / q) 1 % p != 1 % p

theorem lucas {p : Nat} (a : Nat) (factors : List Nat) (h : certifies p a factors = true)
    (hf : ∀ q ∈ factors, q.Prime) : p.Prime := by
  simp only [certifies, Bool.and_eq_true, decide_eq_true_eq, beq_iff_eq, List.all_eq_true, bne_iff_ne] at h
  obtain ⟨⟨⟨⟨h1, h2⟩, hprod⟩, hone⟩, hne⟩ := h
  refine lucas_primality p (a : ZMod p) ?_ ?_
  · have := pow_cast p 256 a (p - 1) 1 (by omega)
    rw [hone] at this
    simpa using this.symm
  · intro q hq hd hc
    have hmem : q ∈ factors := by
      rw [← hprod] at hd
      obtain ⟨r, hr, hqr⟩ := (hq.prime.dvd_prod_iff).1 hd
      exact ((Nat.prime_dvd_prime_iff_eq hq (hf r hr)).1 hqr) ▸ hr
    refine hne q hmem ?_
    have := pow_cast p 256 a ((p - 1) / q) 1 (lt_of_le_of_lt (Nat.div_le_self _ _) (by omega))
    rw [hc, Nat.cast_one, mul_one] at this
    have h3 := (ZMod.natCast_eq_natCast_iff' _ 1 p).1 (by simpa using this)
    exact h3

theorem prime_173378833005 : Nat.Prime 173378833005251801 :=
  lucas 6 [2, 2, 2, 5, 5, 2621, 24809, 13331831] (by decide +kernel) (by
    simp only [List.forall_mem_cons, List.not_mem_nil, false_imp_iff, implies_true, and_true]
    exact ⟨by norm_num, by norm_num, by norm_num, by norm_num, by norm_num, by norm_num, by norm_num, by norm_num⟩)

theorem prime_221494926740 : Nat.Prime 22149492674086928081353 :=
  lucas 5 [2, 2, 2, 3, 5323, 173378833005251801] (by decide +kernel) (by
    simp only [List.forall_mem_cons, List.not_mem_nil, false_imp_iff, implies_true, and_true]
    exact ⟨by norm_num, by norm_num, by norm_num, by norm_num, by norm_num, prime_173378833005⟩)

theorem prime_132896956044 : Nat.Prime 132896956044521568488119 :=
  lucas 6 [2, 3, 22149492674086928081353] (by decide +kernel) (by
    simp only [List.forall_mem_cons, List.not_mem_nil, false_imp_iff, implies_true, and_true]
    exact ⟨by norm_num, by norm_num, prime_221494926740⟩)

theorem prime_107590001 : Nat.Prime 107590001 :=
  lucas 3 [2, 2, 2, 2, 5, 5, 5, 5, 7, 29, 53] (by decide +kernel) (by
    simp only [List.forall_mem_cons, List.not_mem_nil, false_imp_iff, implies_true, and_true]
    exact ⟨by norm_num, by norm_num, by norm_num, by norm_num, by norm_num, by norm_num, by norm_num, by norm_num, by norm_num, by norm_num, by norm_num⟩)

theorem prime_255515944373 : Nat.Prime 255515944373312847190720520512484175977 :=
  lucas 3 [2, 2, 2, 7, 7, 11, 1627, 2657, 4423, 41201, 96557, 7240687, 107590001] (by decide +kernel) (by
    simp only [List.forall_mem_cons, List.not_mem_nil, false_imp_iff, implies_true, and_true]
    exact ⟨by norm_num, by norm_num, by norm_num, by norm_num, by norm_num, by norm_num, by norm_num, by norm_num, by norm_num, by norm_num, by norm_num, by norm_num, prime_107590001⟩)

theorem prime_205115282021 : Nat.Prime 205115282021455665897114700593932402728804164701536103180137503955397371 :=
  lucas 10 [2, 3, 5, 29, 29, 31, 7723, 132896956044521568488119, 255515944373312847190720520512484175977] (by decide +kernel) (by
    simp only [List.forall_mem_cons, List.not_mem_nil, false_imp_iff, implies_true, and_true]
    exact ⟨by norm_num, by norm_num, by norm_num, by norm_num, by norm_num, by norm_num, by norm_num, prime_132896956044, prime_255515944373⟩)

theorem prime_p : Nat.Prime (Concrete.p) :=
  lucas 3 [2, 3, 7, 13441, 205115282021455665897114700593932402728804164701536103180137503955397371] (by decide +kernel) (by
    simp only [List.forall_mem_cons, List.not_mem_nil, false_imp_iff, implies_true, and_true]
    exact ⟨by norm_num, by norm_num, by norm_num, by norm_num, prime_205115282021⟩)

theorem prime_107361793816 : Nat.Prime 107361793816595537 :=
  lucas 3 [2, 2, 2, 2, 16699, 85831, 4681609] (by decide +kernel) (by
    simp only [List.forall_mem_cons, List.not_mem_nil, false_imp_iff, implies_true, and_true]
    exact ⟨by norm_num, by norm_num, by norm_num, by norm_num, by norm_num, by norm_num, by norm_num⟩)

theorem prime_44706919 : Nat.Prime 44706919 :=
  lucas 6 [2, 3, 797, 9349] (by decide +kernel) (by
    simp only [List.forall_mem_cons, List.not_mem_nil, false_imp_iff, implies_true, and_true]
    exact ⟨by norm_num, by norm_num, by norm_num, by norm_num⟩)

theorem prime_174723607534 : Nat.Prime 174723607534414371449 :=
  lucas 3 [2, 2, 2, 17, 59, 4051, 120233, 44706919] (by decide +kernel) (by
    simp only [List.forall_mem_cons, List.not_mem_nil, false_imp_iff, implies_true, and_true]
    exact ⟨by norm_num, by norm_num, by norm_num, by norm_num, by norm_num, by norm_num, by norm_num, prime_44706919⟩)

theorem prime_545358713 : Nat.Prime 545358713 :=
  lucas 5 [2, 2, 2, 41, 59, 28181] (by decide +kernel) (by
    simp only [List.forall_mem_cons, List.not_mem_nil, false_imp_iff, implies_true, and_true]
    exact ⟨by norm_num, by norm_num, by norm_num, by norm_num, by norm_num, by norm_num⟩)

theorem prime_297159362677 : Nat.Prime 297159362677 :=
  lucas 2 [2, 2, 3, 3, 11, 461, 1627771] (by decide +kernel) (by
    simp only [List.forall_mem_cons, List.not_mem_nil, false_imp_iff, implies_true, and_true]
    exact ⟨by norm_num, by norm_num, by norm_num, by norm_num, by norm_num, by norm_num, by norm_num⟩)

theorem prime_290476118734 : Nat.Prime 29047611873442575647497758179 :=
  lucas 2 [2, 293, 305873, 545358713, 297159362677] (by decide +kernel) (by
    simp only [List.forall_mem_cons, List.not_mem_nil, false_imp_iff, implies_true, and_true]
    exact ⟨by norm_num, by norm_num, by norm_num, prime_545358713, prime_297159362677⟩)

theorem prime_341948486974 : Nat.Prime 341948486974166000522343609283189 :=
  lucas 2 [2, 2, 3, 3, 3, 109, 29047611873442575647497758179] (by decide +kernel) (by
    simp only [List.forall_mem_cons, List.not_mem_nil, false_imp_iff, implies_true, and_true]
    exact ⟨by norm_num, by norm_num, by norm_num, by norm_num, by norm_num, by norm_num, prime_290476118734⟩)

theorem prime_N : Nat.Prime (Secp.N) :=
  lucas 7 [2, 2, 2, 2, 2, 2, 3, 149, 631, 107361793816595537, 174723607534414371449, 341948486974166000522343609283189] (by decide +kernel) (by
    simp only [List.forall_mem_cons, List.not_mem_nil, false_imp_iff, implies_true, and_true]
    exact ⟨by norm_num, by norm_num, by norm_num, by norm_num, by norm_num, by norm_num, by norm_num, by norm_num, by norm_num, prime_107361793816, prime_174723607534, prime_341948486974⟩)

end Gringo.Curve
