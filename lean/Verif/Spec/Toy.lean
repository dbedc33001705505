import Verif.Spec.Assumptions
import Verif.Proofs.Codec
import Verif.Proofs.Order
/-
An environment that meets the assumptions of Verif/Spec/Assumptions.lean. It is only used to show that the
hypotheses of theorems can be met; the external code is of course different.
-/
namespace Gringo.Toy

/-- 33 bytes: a tag with the parity and the abscissa. -/
def pointBytes (p : Point) : Bytes := UInt8.ofNat (8 + p.Y % 2) :: be 32 p.X

def pointRead : Rd Point := do
  let t ← Rd.u8
  let x ← Rd.readFull 32
  if t = 8 then pure ⟨ofBE x, 0⟩
  else if t = 9 then pure ⟨ofBE x, 1⟩
  else Rd.fail "bad point"

/-- The points the toy codec represents faithfully. -/
def OKPoint (p : Point) : Prop := p.X < 2 ^ 256 ∧ p.Y < 2

/-- Everything up to the end of the stream. -/
def prfRead : Rd Bytes := fun s => (.ok s, [])

/-- A (bad) hash function with 32-byte results. -/
def blake2b (b : Bytes) : Bytes := be 32 (ofBE (1 :: b) % (2 ^ 256 - 189))

def sortBy {α : Type} (less : α → α → Bool) (l : List α) : List α := l.insertionSort fun a b => less b a = false

/-- The toy environment; `Prf` is a plain byte string and every range proof is accepted. -/
abbrev env : Env where
  maxAlloc := 2 ^ 48
  outputSize := 400
  blake2b := blake2b
  sha256 := blake2b
  siphash := fun a b p => a + 3 * b + UInt64.ofNat (ofLE p)
  pointBytes := pointBytes
  pointRead := pointRead
  Prf := Bytes
  prfBytes := id
  prfRead := prfRead
  rangeVerify := fun _ _ => true
  smul := fun p k => ⟨p.X * k, p.Y⟩
  padd := fun p q => ⟨p.X + q.X, p.Y⟩
  ssum := fun a b => a + b
  smulS := fun a b => a * b
  getB32 := be 32
  modSqrt := id
  now := ⟨1500000000, 0⟩
  sortBy := sortBy

theorem pointCodec : PointCodec env OKPoint where
  reads := by
    intro p hp r
    have hlen : (be 32 p.X).length = 32 := be_length ..
    have hX : ofBE (be 32 p.X) = p.X := by
      rw [ofBE_be]; apply Nat.mod_eq_of_lt
      exact lt_of_lt_of_eq hp.1 (by norm_num)
    obtain ⟨X, Y⟩ := p
    have : Y = 0 ∨ Y = 1 := by have := hp.2; simp only at this; omega
    simp only at *
    rcases this with rfl | rfl <;>
    simp [pointBytes, pointRead, Rd.readFull_append hlen r, hX]
  length := by intro p _; simp [pointBytes, be_length]
  sound := by
    intro s p r h
    simp only [pointRead, Rd.bind_run] at h
    obtain ⟨t, r1, h1, h⟩ := cont_eq_ok h
    simp only [Rd.bind_run] at h
    obtain ⟨x, r2, h2, h⟩ := cont_eq_ok h
    obtain ⟨-, hl⟩ := Rd.readFull_ok h2
    have hlt := ofBE_lt x
    rw [hl] at hlt
    split at h
    · simp at h; obtain ⟨rfl, -⟩ := h; exact ⟨lt_of_lt_of_eq hlt (by norm_num), by simp⟩
    · split at h
      · simp at h; obtain ⟨rfl, -⟩ := h; exact ⟨lt_of_lt_of_eq hlt (by norm_num), by simp⟩
      · simp at h
  proper := by
    unfold env pointRead
    refine Proper.bind Proper.u8 fun t => Proper.bind (Proper.readFull _) fun x => ?_
    exact Proper.ite (Proper.pure _) (Proper.ite (Proper.pure _) (Proper.fail _))
  safe := by
    unfold env pointRead
    refine NeverCrashes.bind NeverCrashes.u8 fun t => NeverCrashes.bind (NeverCrashes.readFull _) fun x => ?_
    exact NeverCrashes.ite (fun _ => .pure _) (fun _ => .ite (fun _ => .pure _) (fun _ => .fail _))
  takes := by
    unfold env pointRead
    refine TakesPrefix.bind TakesPrefix.u8 fun t => TakesPrefix.bind (TakesPrefix.readFull _) fun x => ?_
    exact TakesPrefix.ite (TakesPrefix.pure _) (TakesPrefix.ite (TakesPrefix.pure _) (TakesPrefix.fail _))

theorem prfCodec : PrfCodec env (fun _ => True) where
  reads := by intro x _; rfl
  safe := by intro s; trivial
  takes := by intro s; exact List.nil_suffix

theorem hashLen : HashLen env where
  length := by intro b; exact be_length ..

theorem sortOK : SortOK env where
  perm := by intro α key l; exact List.perm_insertionSort ..
  sorted := by intro α key l; exact insertionSort_sorted key l

end Gringo.Toy
