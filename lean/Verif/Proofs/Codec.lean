import Verif.Spec.Codec
import Mathlib.Data.List.Induction
/-
Lemmas about big-endian numbers and decoders.
-/
namespace Gringo

theorem be_length (n x : Nat) : (be n x).length = n := by
  induction n generalizing x with
  | zero => rfl
  | succ n ih => simp [be, ih]

theorem ofBE_append_single (b : Bytes) (x : UInt8) : ofBE (b ++ [x]) = ofBE b * 256 + x.toNat := by
  simp [ofBE]

theorem ofBE_be (n x : Nat) : ofBE (be n x) = x % 256 ^ n := by
  induction n generalizing x with
  | zero => simp [be, ofBE, Nat.mod_one]
  | succ n ih =>
    rw [be, ofBE_append_single, ih, UInt8.toNat_ofNat']
    have h : x % 256 ^ (n + 1) = x % 256 + 256 * (x / 256 % 256 ^ n) := by
      rw [Nat.pow_succ, Nat.mul_comm (256 ^ n) 256, Nat.mod_mul]
    omega

theorem ofBE_lt (b : Bytes) : ofBE b < 256 ^ b.length := by
  induction b using List.reverseRecOn with
  | nil => simp [ofBE]
  | append_singleton b x ih =>
    rw [ofBE_append_single]
    have := x.toNat_lt
    simp [Nat.pow_succ]
    omega

theorem be_ofBE (b : Bytes) : be b.length (ofBE b) = b := by
  induction b using List.reverseRecOn with
  | nil => rfl
  | append_singleton b x ih =>
    rw [ofBE_append_single]
    have := x.toNat_lt
    simp only [List.length_append, List.length_singleton, be]
    rw [show (ofBE b * 256 + x.toNat) / 256 = ofBE b by omega, ih]
    congr 2
    apply UInt8.toNat_inj.1
    rw [UInt8.toNat_ofNat']; omega

theorem ofBE_inj {a b : Bytes} (hl : a.length = b.length) (h : ofBE a = ofBE b) : a = b := by
  rw [← be_ofBE a, ← be_ofBE b, hl, h]

theorem be_inj {n x y : Nat} (hx : x < 256 ^ n) (hy : y < 256 ^ n) (h : be n x = be n y) : x = y := by
  have := congrArg ofBE h
  rwa [ofBE_be, ofBE_be, Nat.mod_eq_of_lt hx, Nat.mod_eq_of_lt hy] at this

theorem le_length (n x : Nat) : (le n x).length = n := by
  induction n generalizing x with
  | zero => rfl
  | succ n ih => simp [le, ih]

theorem ofLE_le (n x : Nat) : ofLE (le n x) = x % 256 ^ n := by
  induction n generalizing x with
  | zero => simp [le, ofLE, Nat.mod_one]
  | succ n ih =>
    have : ofLE (le (n + 1) x) = (UInt8.ofNat x).toNat + 256 * ofLE (le n (x / 256)) := rfl
    have h : x % 256 ^ (n + 1) = x % 256 + 256 * (x / 256 % 256 ^ n) := by
      rw [Nat.pow_succ, Nat.mul_comm (256 ^ n) 256, Nat.mod_mul]
    rw [this, ih, UInt8.toNat_ofNat', h]

@[simp] theorem be16_length (x : UInt16) : (be16 x).length = 2 := be_length _ _
@[simp] theorem be32_length (x : UInt32) : (be32 x).length = 4 := be_length _ _
@[simp] theorem be64_length (x : UInt64) : (be64 x).length = 8 := be_length _ _

namespace Rd

theorem readFull_append {n : Nat} {b : Bytes} (h : b.length = n) (r : Bytes) :
    readFull n (b ++ r) = (.ok b, r) := by
  subst h
  simp [readFull, List.take_left', List.drop_left']

theorem readFull_short {n : Nat} {s : Bytes} (h : s.length < n) :
    ∃ e, readFull n s = (.err e, []) := by
  unfold readFull
  rw [if_neg (by omega)]
  split <;> exact ⟨_, rfl⟩

theorem readFull_ok {n : Nat} {s b r : Bytes} (h : readFull n s = (.ok b, r)) :
    s = b ++ r ∧ b.length = n := by
  unfold readFull at h
  split at h
  · rename_i hl
    simp only [Prod.mk.injEq, Out.ok.injEq] at h
    obtain ⟨rfl, rfl⟩ := h
    simp [hl]
  · split at h <;> simp at h

@[simp] theorem u8_cons (x : UInt8) (r : Bytes) : u8 (x :: r) = (.ok x, r) := by
  have := readFull_append (n := 1) (b := [x]) rfl r
  simp only [List.singleton_append] at this
  simp [u8, this, ofBE]

@[simp] theorem u16_be16 (x : UInt16) (r : Bytes) : u16 (be16 x ++ r) = (.ok x, r) := by
  have h : ofBE (be16 x) = x.toNat := by
    rw [be16, ofBE_be]; exact Nat.mod_eq_of_lt x.toNat_lt
  simp [u16, readFull_append (be16_length x) r, h]

@[simp] theorem u32_be32 (x : UInt32) (r : Bytes) : u32 (be32 x ++ r) = (.ok x, r) := by
  have h : ofBE (be32 x) = x.toNat := by
    rw [be32, ofBE_be]; exact Nat.mod_eq_of_lt x.toNat_lt
  simp [u32, readFull_append (be32_length x) r, h]

@[simp] theorem u64_be64 (x : UInt64) (r : Bytes) : u64 (be64 x ++ r) = (.ok x, r) := by
  have h : ofBE (be64 x) = x.toNat := by
    rw [be64, ofBE_be]; exact Nat.mod_eq_of_lt x.toNat_lt
  simp [u64, readFull_append (be64_length x) r, h]

theorem make_ok {lim count size : Nat} (h : count * size ≤ lim) (s : Bytes) :
    make lim count size s = (.ok (), s) := by simp [make, h]

theorem limit_append {α : Type} {rd : Rd α} {b : Bytes} {a : α} (h : rd b = (.ok a, [])) (r : Bytes) :
    limit b.length rd (b ++ r) = (.ok a, r) := by
  simp [limit, h]

end Rd

/-! ### `Reads` is compositional -/

theorem Reads.pure {α : Type} (a : α) : Reads (pure a) [] a := fun _ => rfl

theorem Reads.bind {α β : Type} {x : Rd α} {f : α → Rd β} {b b' : Bytes} {a : α} {c : β}
    (h : Reads x b a) (h' : Reads (f a) b' c) : Reads (x >>= f) (b ++ b') c := by
  intro r
  simp [List.append_assoc, h (b' ++ r), h' r]

theorem Reads.readFull {n : Nat} {b : Bytes} (h : b.length = n) : Reads (Rd.readFull n) b b :=
  fun r => Rd.readFull_append h r

theorem Reads.limit {α : Type} {rd : Rd α} {b : Bytes} {a : α} (h : Reads rd b a) :
    Reads (Rd.limit b.length rd) b a :=
  fun r => Rd.limit_append (by simpa using h []) r

theorem Reads.readMany {α : Type} {rd : Rd α} (enc : α → Bytes) (l : List α)
    (h : ∀ a ∈ l, Reads rd (enc a) a) : Reads (Rd.readMany l.length rd) (l.flatMap enc) l := by
  induction l with
  | nil => exact Reads.pure _
  | cons a l ih =>
    intro r
    have h1 := h a (by simp)
    have h2 := ih (fun a ha => h a (by simp [ha]))
    simp [Rd.readMany, List.append_assoc, h1 _, h2 _]

/-! ### `Proper` is compositional -/

theorem Proper.pure {α : Type} (a : α) : Proper (pure a : Rd α) := by
  intro s a' r h
  simp only [Rd.pure_run, Prod.mk.injEq, Out.ok.injEq] at h
  obtain ⟨rfl, rfl⟩ := h
  exact ⟨[], rfl, Reads.pure _⟩

theorem Proper.fail {α : Type} (e : String) : Proper (Rd.fail e : Rd α) := by
  intro s a r h; simp at h

theorem cont_eq_ok {α β : Type} {x : Out α × Bytes} {f : α → Rd β} {c : β} {r : Bytes}
    (h : Rd.cont x f = (.ok c, r)) : ∃ a s, x = (.ok a, s) ∧ f a s = (.ok c, r) := by
  obtain ⟨o, s⟩ := x
  cases o with
  | ok a => exact ⟨a, s, rfl, h⟩
  | err e => simp [Rd.cont] at h
  | panic e => simp [Rd.cont] at h
  | fatal e => simp [Rd.cont] at h

theorem Proper.bind {α β : Type} {x : Rd α} {f : α → Rd β} (hx : Proper x) (hf : ∀ a, Proper (f a)) :
    Proper (x >>= f) := by
  intro s c r h
  rw [Rd.bind_run] at h
  obtain ⟨a, s', h1, h2⟩ := cont_eq_ok h
  obtain ⟨b1, rfl, hb1⟩ := hx _ _ _ h1
  obtain ⟨b2, rfl, hb2⟩ := hf _ _ _ _ h2
  exact ⟨b1 ++ b2, by simp, hb1.bind hb2⟩

theorem Proper.readFull (n : Nat) : Proper (Rd.readFull n) := by
  intro s a r h
  obtain ⟨rfl, hl⟩ := Rd.readFull_ok h
  exact ⟨a, rfl, Reads.readFull hl⟩

theorem Proper.u8 : Proper Rd.u8 := (Proper.readFull 1).bind fun _ => Proper.pure _
theorem Proper.u16 : Proper Rd.u16 := (Proper.readFull 2).bind fun _ => Proper.pure _
theorem Proper.u32 : Proper Rd.u32 := (Proper.readFull 4).bind fun _ => Proper.pure _
theorem Proper.u64 : Proper Rd.u64 := (Proper.readFull 8).bind fun _ => Proper.pure _

theorem Proper.make (lim count size : Nat) : Proper (Rd.make lim count size) := by
  unfold Rd.make
  split
  · exact Proper.pure _
  · intro s a r h; simp at h

theorem Proper.readMany {α : Type} {rd : Rd α} (h : Proper rd) (n : Nat) :
    Proper (Rd.readMany n rd) := by
  induction n with
  | zero => exact Proper.pure _
  | succ n ih => exact h.bind fun a => ih.bind fun l => Proper.pure _

/-! ### decoders that never crash -/

theorem NeverCrashes.pure {α : Type} (a : α) : NeverCrashes (pure a : Rd α) := fun _ => trivial

theorem NeverCrashes.fail {α : Type} (e : String) : NeverCrashes (Rd.fail e : Rd α) := fun _ => trivial

theorem NeverCrashes.bind {α β : Type} {x : Rd α} {f : α → Rd β} (hx : NeverCrashes x)
    (hf : ∀ a, NeverCrashes (f a)) : NeverCrashes (x >>= f) := by
  intro s
  have h := hx s
  rw [Rd.bind_run]
  match he : x s with
  | (.ok a, r) => exact hf a r
  | (.err e, r) => trivial
  | (.panic e, r) => rw [he] at h; exact h.elim
  | (.fatal e, r) => rw [he] at h; exact h.elim

theorem NeverCrashes.readFull (n : Nat) : NeverCrashes (Rd.readFull n) := by
  intro s
  unfold Rd.readFull
  split
  · trivial
  · split <;> trivial

theorem NeverCrashes.u8 : NeverCrashes Rd.u8 := (NeverCrashes.readFull 1).bind fun _ => .pure _
theorem NeverCrashes.u16 : NeverCrashes Rd.u16 := (NeverCrashes.readFull 2).bind fun _ => .pure _
theorem NeverCrashes.u32 : NeverCrashes Rd.u32 := (NeverCrashes.readFull 4).bind fun _ => .pure _
theorem NeverCrashes.u64 : NeverCrashes Rd.u64 := (NeverCrashes.readFull 8).bind fun _ => .pure _

theorem NeverCrashes.make {lim count size : Nat} (h : count * size ≤ lim) :
    NeverCrashes (Rd.make lim count size) := by
  unfold Rd.make; rw [if_pos h]; exact .pure _

theorem NeverCrashes.readMany {α : Type} {rd : Rd α} (h : NeverCrashes rd) (n : Nat) :
    NeverCrashes (Rd.readMany n rd) := by
  induction n with
  | zero => exact .pure _
  | succ n ih => exact h.bind fun a => ih.bind fun l => .pure _

theorem NeverCrashes.limit {α : Type} {rd : Rd α} (h : NeverCrashes rd) (n : Nat) :
    NeverCrashes (Rd.limit n rd) := fun s => h (s.take n)

/-! ### decoders that only take a prefix -/

theorem TakesPrefix.pure {α : Type} (a : α) : TakesPrefix (pure a : Rd α) := fun s => List.suffix_refl s

theorem TakesPrefix.fail {α : Type} (e : String) : TakesPrefix (Rd.fail e : Rd α) :=
  fun s => List.suffix_refl s

theorem TakesPrefix.bind {α β : Type} {x : Rd α} {f : α → Rd β} (hx : TakesPrefix x)
    (hf : ∀ a, TakesPrefix (f a)) : TakesPrefix (x >>= f) := by
  intro s
  have h := hx s
  rw [Rd.bind_run]
  match he : x s with
  | (.ok a, r) => rw [he] at h; exact (hf a r).trans h
  | (.err e, r) => rw [he] at h; exact h
  | (.panic e, r) => rw [he] at h; exact h
  | (.fatal e, r) => rw [he] at h; exact h

theorem TakesPrefix.readFull (n : Nat) : TakesPrefix (Rd.readFull n) := by
  intro s
  unfold Rd.readFull
  split
  · exact List.drop_suffix _ _
  · split <;> exact List.nil_suffix

theorem TakesPrefix.u8 : TakesPrefix Rd.u8 := (TakesPrefix.readFull 1).bind fun _ => .pure _
theorem TakesPrefix.u16 : TakesPrefix Rd.u16 := (TakesPrefix.readFull 2).bind fun _ => .pure _
theorem TakesPrefix.u32 : TakesPrefix Rd.u32 := (TakesPrefix.readFull 4).bind fun _ => .pure _
theorem TakesPrefix.u64 : TakesPrefix Rd.u64 := (TakesPrefix.readFull 8).bind fun _ => .pure _

theorem TakesPrefix.make (lim count size : Nat) : TakesPrefix (Rd.make lim count size) := by
  unfold Rd.make; split
  · exact .pure _
  · exact fun s => List.suffix_refl s

theorem TakesPrefix.readMany {α : Type} {rd : Rd α} (h : TakesPrefix rd) (n : Nat) :
    TakesPrefix (Rd.readMany n rd) := by
  induction n with
  | zero => exact .pure _
  | succ n ih => exact h.bind fun a => ih.bind fun l => .pure _

theorem TakesPrefix.limit {α : Type} {rd : Rd α} (h : TakesPrefix rd) (n : Nat) :
    TakesPrefix (Rd.limit n rd) := by
  intro s
  obtain ⟨p, hp⟩ := h (s.take n)
  refine ⟨p, ?_⟩
  simp only [Rd.limit]
  rw [← List.append_assoc, hp, List.take_append_drop]

theorem TakesPrefix.ite {α : Type} {c : Prop} [Decidable c] {x y : Rd α} (hx : TakesPrefix x)
    (hy : TakesPrefix y) : TakesPrefix (if c then x else y) := by split <;> assumption

theorem NeverCrashes.ite {α : Type} {c : Prop} [Decidable c] {x y : Rd α} (hx : c → NeverCrashes x)
    (hy : ¬ c → NeverCrashes y) : NeverCrashes (if c then x else y) := by
  split
  · exact hx ‹_›
  · exact hy ‹_›

theorem Proper.ite {α : Type} {c : Prop} [Decidable c] {x y : Rd α} (hx : Proper x)
    (hy : Proper y) : Proper (if c then x else y) := by split <;> assumption

theorem readMany_length {α : Type} {rd : Rd α} {n : Nat} {s r : Bytes} {l : List α}
    (h : Rd.readMany n rd s = (.ok l, r)) : l.length = n := by
  induction n generalizing s l r with
  | zero => simp [Rd.readMany] at h; rw [h.1]; rfl
  | succ n ih =>
    simp only [Rd.readMany, Rd.bind_run] at h
    obtain ⟨a, r1, h1, h⟩ := cont_eq_ok h
    simp only [Rd.bind_run] at h
    obtain ⟨t, r2, h2, h⟩ := cont_eq_ok h
    simp only [Rd.pure_run, Prod.mk.injEq, Out.ok.injEq] at h
    rw [← h.1, List.length_cons, ih h2]

theorem readMany_forall {α : Type} {rd : Rd α} {n : Nat} {s r : Bytes} {l : List α} {p : α → Prop}
    (hp : ∀ {s r a}, rd s = (.ok a, r) → p a) (h : Rd.readMany n rd s = (.ok l, r)) : ∀ a ∈ l, p a := by
  induction n generalizing s l r with
  | zero => simp [Rd.readMany] at h; rw [h.1]; simp
  | succ n ih =>
    simp only [Rd.readMany, Rd.bind_run] at h
    obtain ⟨a, r1, h1, h⟩ := cont_eq_ok h
    simp only [Rd.bind_run] at h
    obtain ⟨t, r2, h2, h⟩ := cont_eq_ok h
    simp only [Rd.pure_run, Prod.mk.injEq, Out.ok.injEq] at h
    rw [← h.1]
    intro x hx
    rcases List.mem_cons.1 hx with rfl | hx
    · exact hp h1
    · exact ih h2 x hx

end Gringo
