import Verif.Model.Print

/-
C108: the printed form of a hash, short id or commitment identifies it.
-/

namespace Gringo.Props.Print
open Gringo Gringo.Print

/-! ### The specification: reading hexadecimal text -/

/-- The value of a hexadecimal digit. -/
def value (c : Char) : Option Nat :=
  if '0' ≤ c ∧ c ≤ '9' then some (c.toNat - '0'.toNat)
  else if 'a' ≤ c ∧ c ≤ 'f' then some (c.toNat - 'a'.toNat + 10)
  else none

/-- Reads text as bytes, two digits for each. -/
def unhex : List Char → Option Bytes
  | [] => some []
  | [_] => none
  | a :: b :: rest => do
    let x ← value a
    let y ← value b
    let bs ← unhex rest
    return UInt8.ofNat (16 * x + y) :: bs

theorem digit_value : ∀ n : Fin 16, value (hexDigits.getD n.val ' ') = some n.val := by decide

theorem digit_value' {n : Nat} (h : n < 16) : value (hexDigits.getD n ' ') = some n := digit_value ⟨n, h⟩

theorem hexEncode_length (b : Bytes) : (hexEncode b).length = 2 * b.length := by
  induction b with
  | nil => rfl
  | cons a b ih =>
    simp only [hexEncode, List.flatMap_cons, List.length_append, List.length_cons] at ih ⊢
    rw [ih]
    simp only [hexByte, List.length_cons, List.length_nil]
    omega

theorem unhex_hexEncode (b : Bytes) : unhex (hexEncode b) = some b := by
  induction b with
  | nil => rfl
  | cons a b ih =>
    have h1 : a.toNat / 16 < 16 := by have := a.toNat_lt; omega
    have h2 : a.toNat % 16 < 16 := Nat.mod_lt _ (by decide)
    have h : hexEncode (a :: b) =
        hexDigits.getD (a.toNat / 16) ' ' :: hexDigits.getD (a.toNat % 16) ' ' :: hexEncode b := rfl
    rw [h]
    simp only [unhex, digit_value' h1, digit_value' h2, ih, Option.bind_eq_bind, Option.bind_some, Option.pure_def]
    rw [Nat.div_add_mod, UInt8.ofNat_toNat]

theorem hexPad32_of_long {b : Bytes} (h : 16 ≤ b.length) : hexPad32 b = hexEncode b := by
  have : 32 - (hexEncode b).length = 0 := by rw [hexEncode_length]; omega
  rw [hexPad32, this]; rfl

/-! ### C108 -/

/-- **C108** for short ids and commitments of any length: the text has two characters for each byte, reading it back
as hexadecimal gives the bytes, so two that print alike are equal. -/
theorem C108_ids (b : Bytes) :
    (shortIDString b).length = 2 * b.length ∧ unhex (shortIDString b) = some b ∧
    unhex (commitmentString b) = some b ∧
    ∀ b', (shortIDString b' = shortIDString b → b' = b) ∧ (commitmentString b' = commitmentString b → b' = b) := by
  refine ⟨hexEncode_length b, unhex_hexEncode b, unhex_hexEncode b, fun b' => ?_⟩
  have key : hexEncode b' = hexEncode b → b' = b := fun h => by
    have := congrArg unhex h
    rwa [unhex_hexEncode, unhex_hexEncode, Option.some.injEq] at this
  exact ⟨key, key⟩

/-- **C108** for hashes of sixteen bytes or more, the length of every hash the node computes: reading the text back
gives the hash. -/
theorem C108_hash_partial (h : Bytes) (hl : 16 ≤ h.length) :
    unhex (hashString h) = some h ∧ ∀ h', 16 ≤ h'.length → hashString h' = hashString h → h' = h := by
  have rd : ∀ x : Bytes, 16 ≤ x.length → unhex (hashString x) = some x := fun x hx => by
    rw [hashString, hexPad32_of_long hx, unhex_hexEncode]
  refine ⟨rd h hl, fun h' hl' he => ?_⟩
  have := congrArg unhex he
  rwa [rd h hl, rd h' hl', Option.some.injEq] at this

/-- **C108** fails for shorter hashes: each prints like itself with a zero byte in front. -/
theorem C108_refuted (h : Bytes) (hl : h.length < 16) :
    hashString (0 :: h) = hashString h ∧ (0 :: h : Bytes) ≠ h := by
  constructor
  · have e : hexEncode (0 :: h) = '0' :: '0' :: hexEncode h := rfl
    have l := hexEncode_length h
    obtain ⟨k, hk⟩ : ∃ k, 32 - (hexEncode h).length = k + 2 := ⟨30 - (hexEncode h).length, by omega⟩
    have hk' : 32 - (hexEncode (0 :: h)).length = k := by
      rw [e]; simp only [List.length_cons]; omega
    rw [hashString, hashString, hexPad32, hexPad32, hk, hk', e]
    rw [show k + 2 = k + 1 + 1 from rfl, List.replicate_succ', List.replicate_succ']
    simp only [List.append_assoc, List.cons_append, List.nil_append]
  · intro he
    have := congrArg List.length he
    simp only [List.length_cons] at this
    omega

/-- **C108** for features: an output or kernel prints as coinbase exactly when its features are the coinbase flag
alone. -/
theorem C108_features (f : UInt8) :
    (outputFeaturesString f = "Coinbase" ↔ f = 1) ∧ (kernelFeaturesString f = "Coinbase" ↔ f = 1) := by
  have key : outputFeaturesString f = "Coinbase" ↔ f = 1 := by
    unfold outputFeaturesString
    by_cases h0 : f = 0
    · subst h0; simp
    · rw [if_neg h0]
      by_cases h1 : f = 1
      · rw [if_pos h1]; simp [h1]
      · rw [if_neg h1]; simp [h1]
  exact ⟨key, key⟩

/-! ### Concrete cases -/

/-- The hash of consensus/consensus_test.go:19 prints as it is written there. -/
example : String.ofList (shortIDString [0xe9, 0x73, 0x96, 0x0b, 0xa6, 0x90]) = "e973960ba690" := by decide +kernel

example : 16 ≤ (List.replicate 32 (7 : UInt8)).length ∧
    unhex (hashString (List.replicate 32 7)) = some (List.replicate 32 7) :=
  ⟨by decide, (C108_hash_partial _ (by decide)).1⟩

/-- The empty hash and a zero byte both print as 32 zeros. -/
example : String.ofList (hashString []) = "00000000000000000000000000000000" ∧
    hashString [0] = hashString [] := ⟨by decide +kernel, (C108_refuted [] (by decide)).1⟩

end Gringo.Props.Print
