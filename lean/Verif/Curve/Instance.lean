import Verif.Curve.Lawful
import Verif.Spec.Toy
/-
The environment of Verif/Concrete/Secp.lean (secp256k1, BLAKE2b-256, insertion sort) meets the assumptions of
Verif/Spec/Assumptions.lean as well.
-/
namespace Gringo.Curve
open Gringo.Concrete WeierstrassCurve

/-- -7 is not a cube, so no point of the curve has ordinate 0. -/
theorem seven_not_cube (x : F) : x ^ 3 + 7 ≠ 0 := by
  intro h
  have h1 : x ^ 3 = ((Concrete.p - 7 : Nat) : F) := by
    rw [Nat.cast_sub (by decide), ZMod.natCast_self]
    push_cast
    linear_combination h
  by_cases hx : x = 0
  · subst hx
    have : (7 : F) = 0 := by simpa using h
    have h7 : ((7 : Nat) : F) = 0 := by exact_mod_cast this
    rw [cast_zero (by decide)] at h7
    exact absurd h7 (by decide)
  · have h2 : (x ^ 3) ^ ((Concrete.p - 1) / 3) = 1 := by
      rw [← pow_mul]
      have e : 3 * ((Concrete.p - 1) / 3) = Concrete.p - 1 := by decide
      rw [e]
      exact ZMod.pow_card_sub_one_eq_one hx
    rw [h1] at h2
    have h3 : ((powMod 256 (Concrete.p - 7) ((Concrete.p - 1) / 3) 1 : Nat) : F) = ((1 : Nat) : F) := by
      rw [powMod_cast _ _ _ (by decide), h2]
      simp
    rw [cast_inj (powMod_lt _ _ _ _ (by decide)) (by decide)] at h3
    exact absurd h3 (by decide +kernel)

/-- The points the codec represents faithfully: on the curve, the abscissa below `2^256` and the ordinate
reduced. -/
def OKPoint (q : Point) : Prop :=
  q.X < 2 ^ 256 ∧ q.Y < Concrete.p ∧ q.Y * q.Y % Concrete.p = (q.X * q.X * q.X + 7) % Concrete.p

theorem OKPoint.root {q : Point} (hq : OKPoint q) :
    modSqrt (q.X * q.X * q.X + 7) * modSqrt (q.X * q.X * q.X + 7) % Concrete.p =
      (q.X * q.X * q.X + 7) % Concrete.p ∧
    0 < modSqrt (q.X * q.X * q.X + 7) ∧
    (q.Y = modSqrt (q.X * q.X * q.X + 7) ∨ q.Y = Concrete.p - modSqrt (q.X * q.X * q.X + 7) ∧
      q.Y ≠ modSqrt (q.X * q.X * q.X + 7)) := by
  obtain ⟨hX, hY, he⟩ := hq
  have hcube : ((q.X * q.X * q.X + 7 : Nat) : F) ≠ 0 := by
    push_cast
    have := seven_not_cube (q.X : F)
    intro h
    exact this (by linear_combination h)
  generalize q.X * q.X * q.X + 7 = n at he hcube
  have hn : (n : F) = (q.Y : F) ^ 2 := by
    have := (ZMod.natCast_eq_natCast_iff' _ _ Concrete.p).2 he
    push_cast at this
    linear_combination -this
  have hs := modSqrt_sq n _ hn
  have hlt := modSqrt_lt n
  have hr : (modSqrt n : F) * modSqrt n = n := by
    rcases hs with h | h <;> rw [h, hn] <;> ring
  have h0 : 0 < modSqrt n := by
    rcases Nat.eq_zero_or_pos (modSqrt n) with h | h
    · rw [h] at hr
      exact absurd (by simpa using hr.symm) hcube
    · exact h
  refine ⟨?_, h0, ?_⟩
  · rw [← ZMod.natCast_eq_natCast_iff']
    push_cast
    exact hr
  · by_cases heq : q.Y = modSqrt n
    · exact .inl heq
    · refine .inr ⟨?_, heq⟩
      rcases hs with h | h
      · exact absurd ((cast_inj hlt hY).1 h).symm heq
      · rw [← cast_inj hY (Nat.sub_lt p_pos h0), Nat.cast_sub (Nat.le_of_lt hlt), ZMod.natCast_self, h]
        ring

theorem pointBytes_cons (q : Point) : ∃ t : UInt8, pointBytes q = t :: be 32 q.X ∧ (t = 8 ∨ t = 9) ∧
    (t = 8 ↔ q.Y % Concrete.p = modSqrt (q.X * q.X * q.X + 7)) := by
  refine ⟨_, rfl, ?_⟩
  split <;> simp_all

theorem pointRead_run (t : UInt8) (xb r : Bytes) (hl : xb.length = 32) :
    pointRead (t :: xb ++ r) =
      (if t ≠ 8 ∧ t ≠ 9 then (Rd.fail "bad tag" : Rd Point) else
        if modSqrt (ofBE xb * ofBE xb * ofBE xb + 7) * modSqrt (ofBE xb * ofBE xb * ofBE xb + 7) % Concrete.p ≠
          (ofBE xb * ofBE xb * ofBE xb + 7) % Concrete.p then Rd.fail "not on the curve"
        else pure ⟨ofBE xb, if t = 8 then modSqrt (ofBE xb * ofBE xb * ofBE xb + 7)
          else Concrete.p - modSqrt (ofBE xb * ofBE xb * ofBE xb + 7)⟩) r := by
  simp only [pointRead, Rd.bind_run, List.cons_append, Rd.u8_cons, Rd.cont_ok, Rd.readFull_append hl]

attribute [local irreducible] Concrete.modSqrt in
theorem pointCodec : PointCodec Concrete.env OKPoint where
  reads := by
    intro q hq r
    show pointRead (pointBytes q ++ r) = _
    obtain ⟨hsq, h0, hy⟩ := hq.root
    have hlen : (be 32 q.X).length = 32 := be_length ..
    have hX : ofBE (be 32 q.X) = q.X := by
      rw [ofBE_be]; exact Nat.mod_eq_of_lt (lt_of_lt_of_eq hq.1 (by norm_num))
    obtain ⟨t, ht, htt, h8⟩ := pointBytes_cons q
    rw [ht, pointRead_run _ _ _ hlen, hX, if_neg (by rcases htt with h | h <;> simp [h]), if_neg (not_not.2 hsq)]
    rw [Nat.mod_eq_of_lt hq.2.1] at h8
    generalize modSqrt (q.X * q.X * q.X + 7) = y at *
    obtain ⟨X, Y⟩ := q
    simp only at *
    rcases hy with h | ⟨h, hne⟩
    · rw [if_pos (h8.2 h), h]; rfl
    · rw [if_neg (fun h' => hne (h8.1 h')), ← h]; rfl
  length := by
    intro q _
    obtain ⟨t, ht, -⟩ := pointBytes_cons q
    show (pointBytes q).length = 33
    rw [ht, List.length_cons, be_length]
  sound := by
    intro s q r h
    change pointRead s = _ at h
    simp only [pointRead, Rd.bind_run] at h
    obtain ⟨t, r1, h1, h⟩ := cont_eq_ok h
    simp only [Rd.bind_run] at h
    obtain ⟨x, r2, h2, h⟩ := cont_eq_ok h
    obtain ⟨-, hl⟩ := Rd.readFull_ok h2
    have hlt := ofBE_lt x
    rw [hl] at hlt
    have hy := modSqrt_lt (ofBE x * ofBE x * ofBE x + 7)
    have hcube : ((ofBE x * ofBE x * ofBE x + 7 : Nat) : F) ≠ 0 := by
      push_cast
      have := seven_not_cube (ofBE x : F)
      intro h
      exact this (by linear_combination h)
    split at h
    · cases h
    · split at h
      · cases h
      · rename_i hc
        rw [not_not] at hc
        have hq : q = ⟨ofBE x, if t = 8 then modSqrt (ofBE x * ofBE x * ofBE x + 7)
            else Concrete.p - modSqrt (ofBE x * ofBE x * ofBE x + 7)⟩ := by
          cases h; rfl
        subst hq
        generalize hn : ofBE x * ofBE x * ofBE x + 7 = n at *
        refine ⟨lt_of_lt_of_eq hlt (by norm_num), ?_, ?_⟩
        · show (if t = 8 then modSqrt n else Concrete.p - modSqrt n) < Concrete.p
          split
          · exact hy
          · refine Nat.sub_lt p_pos ?_
            rcases Nat.eq_zero_or_pos (modSqrt n) with h0 | h0
            · rw [← ZMod.natCast_eq_natCast_iff', h0] at hc
              exact absurd (by simpa using hc.symm) hcube
            · exact h0
        · show (if t = 8 then modSqrt n else Concrete.p - modSqrt n) *
            (if t = 8 then modSqrt n else Concrete.p - modSqrt n) % Concrete.p = _
          simp only [hn]
          split
          · exact hc
          · rw [← hc, ← ZMod.natCast_eq_natCast_iff']
            push_cast [Nat.cast_sub (Nat.le_of_lt hy)]
            rw [ZMod.natCast_self]
            ring
  proper := by
    show Proper pointRead
    unfold pointRead
    refine Proper.bind Proper.u8 fun t => Proper.bind (Proper.readFull _) fun x => ?_
    exact Proper.ite (Proper.fail _) (Proper.ite (Proper.fail _) (Proper.pure _))
  safe := by
    show NeverCrashes pointRead
    unfold pointRead
    refine NeverCrashes.bind NeverCrashes.u8 fun t => NeverCrashes.bind (NeverCrashes.readFull _) fun x => ?_
    apply NeverCrashes.ite
    · intro _; exact NeverCrashes.fail _
    · intro _
      apply NeverCrashes.ite
      · intro _; exact NeverCrashes.fail _
      · intro _; exact NeverCrashes.pure _
  takes := by
    show TakesPrefix pointRead
    unfold pointRead
    refine TakesPrefix.bind TakesPrefix.u8 fun t => TakesPrefix.bind (TakesPrefix.readFull _) fun x => ?_
    exact TakesPrefix.ite (TakesPrefix.fail _) (TakesPrefix.ite (TakesPrefix.fail _) (TakesPrefix.pure _))

theorem prfCodec : PrfCodec Concrete.env (fun _ => True) where
  reads _ _ := rfl
  safe _ := trivial
  takes _ := List.nil_suffix

theorem compress_length (h : List UInt64) (b : Bytes) (t : Nat) (l : Bool) :
    (Blake2b.compress h b t l).length = 8 := by
  unfold Blake2b.compress
  simp

theorem absorb_length (n : Nat) (h : List UInt64) (b : Bytes) (t : Nat) (hh : h.length = 8) :
    (Blake2b.absorb n h b t).length = 8 := by
  induction n generalizing h b t with
  | zero => exact hh
  | succ n ih =>
    rw [Blake2b.absorb]
    split
    · exact compress_length ..
    · exact ih _ _ _ (compress_length ..)

theorem flatMap_le_length (l : List UInt64) : (l.flatMap fun w => le 8 w.toNat).length = 8 * l.length := by
  induction l with
  | nil => rfl
  | cons a l ih => rw [List.flatMap_cons, List.length_append, le_length, ih, List.length_cons]; omega

theorem hashLen : HashLen Concrete.env where
  length b := by
    show (Blake2b.sum256 b).length = 32
    rw [Blake2b.sum256, flatMap_le_length, List.length_take, absorb_length _ _ _ _ (by rfl)]
    rfl

theorem sortBy_eq {α : Type} (less : α → α → Bool) (l : List α) :
    Concrete.sortBy less l = l.insertionSort fun a b => less b a = false := by
  induction l with
  | nil => rfl
  | cons a l ih =>
    rw [List.insertionSort_cons, List.orderedInsert_eq_take_drop, ← ih]
    simp [Concrete.sortBy]

theorem sortOK : SortOK Concrete.env where
  perm key l := by
    show (Concrete.sortBy _ l).Perm l
    rw [sortBy_eq]
    exact List.perm_insertionSort ..
  sorted key l := by
    show isSorted _ (Concrete.sortBy _ l) = true
    rw [sortBy_eq]
    exact insertionSort_sorted key l

end Gringo.Curve
