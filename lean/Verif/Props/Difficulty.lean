import Verif.Proofs.Difficulty
import Verif.Props.Headers
/-
C35-C38: difficulty arithmetic.
-/
namespace Gringo.Props
open Gringo.Spec

/-- **C35.** The next difficulty always exists (no panic), is at least 1 for a non-empty history, and for a
full window of 71 blocks, when the sum of the 60 front difficulties does not overflow once multiplied by 60,
it is their average times 3600 / 7200 (the time span is bounded to exactly 7200 whatever the time stamps),
but at least 1. -/
theorem C35_next_difficulty (bl : List BlockHeader) :
    ∃ d : UInt64, nextDifficulty bl = .ok d ∧ (bl ≠ [] → 1 ≤ d.toNat) ∧
      (bl.length = 71 → frontSum bl * 60 < 2 ^ 64 →
        d.toNat = max 1 (frontAverage bl * 3600 / 7200) ∧ d.toNat ≤ max 1 (frontAverage bl)) := by
  obtain ⟨d, hd, hv⟩ := nextDifficulty_closed bl
  refine ⟨d, hd, ?_, ?_⟩
  · intro hne
    have : bl.length ≠ 0 := fun h => hne (List.length_eq_zero_iff.1 h)
    rw [if_neg this] at hv
    split at hv <;> omega
  · intro h71 hs
    rw [if_neg (by omega), if_pos h71] at hv
    unfold frontAverage
    rw [Nat.mod_eq_of_lt (show frontSum bl < 2 ^ 64 by omega),
      Nat.mod_eq_of_lt (show frontSum bl / 60 * 3600 < 2 ^ 64 by omega)] at hv
    omega

/-- The value with 64-bit overflow included, for histories of any length. -/
theorem C35_exact (bl : List BlockHeader) :
    ∃ d : UInt64, nextDifficulty bl = .ok d ∧
      d.toNat = if bl.length = 0 then 0 else if bl.length = 71 then
        max 1 (frontSum bl % 2 ^ 64 / 60 * 3600 % 2 ^ 64 / 7200) else 1 :=
  nextDifficulty_closed bl

/-- A full window of difficulty 1000 gives 500. -/
example : nextDifficulty (List.replicate 71 { sampleHeader with difficulty := 1000 }) = .ok 500 := by
  obtain ⟨d, hd, hv⟩ := C35_exact (List.replicate 71 { sampleHeader with difficulty := 1000 })
  rw [hd]
  have : d.toNat = 500 := by rw [hv]; decide
  rw [← UInt64.toNat_inj.1 (this.trans (by decide : 500 = (500 : UInt64).toNat))]

/-- **C36, the part that holds**: a faster history never yields a lower difficulty. The property asks for a
higher one, which is false: see `C36_refuted`. -/
theorem C36_monotone_partial (fast slow : List BlockHeader)
    (hd : fast.map (·.difficulty) = slow.map (·.difficulty)) :
    ∃ a b, nextDifficulty fast = .ok a ∧ nextDifficulty slow = .ok b ∧ b ≤ a := by
  have hl : fast.length = slow.length := by simpa using congrArg List.length hd
  have hs : frontSum fast = frontSum slow := by
    unfold frontSum
    have : ∀ l : List BlockHeader, (l.take 60).map (·.difficulty.toNat) =
        ((l.map (·.difficulty)).take 60).map UInt64.toNat := by
      intro l; rw [← List.map_take, List.map_map]; rfl
    rw [this, this, hd]
  obtain ⟨a, ha, hva⟩ := nextDifficulty_closed fast
  obtain ⟨b, hb, hvb⟩ := nextDifficulty_closed slow
  refine ⟨a, b, ha, hb, ?_⟩
  rw [hl, hs] at hva
  rw [UInt64.le_iff_toNat_le]
  omega

/-- **C36 is false of the code**: the time stamps are irrelevant. Two histories with the same difficulties
get the same next difficulty, whatever their times. -/
theorem C36_refuted (fast slow : List BlockHeader)
    (hd : fast.map (·.difficulty) = slow.map (·.difficulty)) :
    nextDifficulty fast = nextDifficulty slow := by
  obtain ⟨a, b, ha, hb, h1⟩ := C36_monotone_partial fast slow hd
  obtain ⟨b', a', hb', ha', h2⟩ := C36_monotone_partial slow fast hd.symm
  rw [ha] at ha'
  rw [hb] at hb'
  rw [Out.ok.injEq] at ha' hb'
  rw [ha, hb, UInt64.le_antisymm (by rw [ha', hb']; exact h2) h1]

/-- Two full windows with the same difficulties, one with all blocks at the same instant, one with ten
years between blocks. -/
example : nextDifficulty ((List.range 71).map fun _ => { sampleHeader with timestamp := Time.unix 0 }) =
    nextDifficulty ((List.range 71).map fun (i : Nat) =>
      { sampleHeader with timestamp := Time.unix (315360000 * (71 - i : Int)) }) :=
  C36_refuted _ _ (by rw [List.map_map, List.map_map]; rfl)

/-- **C37, the part that holds**: with exactly 71 blocks the 60 front ones (the most recent) are used,
without overflow. -/
theorem C37_window_partial (bl : List BlockHeader) (h : bl.length = 71) (hs : frontSum bl * 60 < 2 ^ 64) :
    ∃ d : UInt64, nextDifficulty bl = .ok d ∧ d.toNat = max 1 (frontAverage bl * 3600 / 7200) := by
  obtain ⟨d, hd, -, h'⟩ := C35_next_difficulty bl
  exact ⟨d, hd, (h' h hs).1⟩

/-- **C37 is false of the code**: with any number of additional older blocks the answer drops to the minimum
1, whatever the recent blocks are. -/
theorem C37_refuted (bl older : List BlockHeader) (h : 71 ≤ bl.length) (ho : older ≠ []) :
    nextDifficulty (bl ++ older) = .ok 1 := by
  obtain ⟨d, hd, hv⟩ := nextDifficulty_closed (bl ++ older)
  have h1 : older.length ≠ 0 := fun h => ho (List.length_eq_zero_iff.1 h)
  rw [List.length_append, if_neg (by omega), if_neg (by omega)] at hv
  rw [hd, ← UInt64.toNat_inj.1 (hv.trans (by decide : 1 = (1 : UInt64).toNat))]

/-- The first 8 bytes of a hash as a number. -/
def hashPrefix (hash : Bytes) : Nat := ofBE (hash.take 8)

theorem fromHash_closed (hash : Bytes) (hl : hash.length = 32) :
    (hashPrefix hash = 0 → difficultyFromHash hash = .panic "integer divide by zero") ∧
    (hashPrefix hash ≠ 0 → ∃ d : UInt64, difficultyFromHash hash = .ok d ∧
      d.toNat = 0x0fffffffffffffff / hashPrefix hash) := by
  have hlt : hashPrefix hash < 2 ^ 64 := by
    have := ofBE_lt (hash.take 8)
    rw [List.length_take, Nat.min_eq_left (by omega)] at this
    exact this
  have hn : (UInt64.ofNat (hashPrefix hash)).toNat = hashPrefix hash := by
    rw [UInt64.toNat_ofNat', Nat.mod_eq_of_lt hlt]
  have hz : UInt64.ofNat (hashPrefix hash) = 0 ↔ hashPrefix hash = 0 := by
    rw [← UInt64.toNat_inj, hn]; rfl
  unfold difficultyFromHash
  rw [if_neg (by omega)]
  constructor
  · intro h
    exact if_pos (hz.2 h)
  · intro h
    refine ⟨maxTarget / UInt64.ofNat (hashPrefix hash), if_neg (fun h' => h (hz.1 h')), ?_⟩
    rw [UInt64.toNat_div, hn]; rfl

/-- **C38, the part that holds**: for a hash with a non-zero prefix the difficulty is the stated quotient,
and smaller prefixes never have smaller difficulty. It is at least 1 exactly when the prefix does not exceed
the maximum target. -/
theorem C38_from_hash_partial (h1 h2 : Bytes) (l1 : h1.length = 32) (l2 : h2.length = 32)
    (hle : hashPrefix h1 ≤ hashPrefix h2) (hpos : 0 < hashPrefix h1) :
    ∃ d1 d2 : UInt64, difficultyFromHash h1 = .ok d1 ∧ difficultyFromHash h2 = .ok d2 ∧
      d1.toNat = 0x0fffffffffffffff / hashPrefix h1 ∧ d2 ≤ d1 ∧
      (1 ≤ d1.toNat ↔ hashPrefix h1 ≤ 0x0fffffffffffffff) := by
  obtain ⟨d1, e1, v1⟩ := (fromHash_closed h1 l1).2 (by omega)
  obtain ⟨d2, e2, v2⟩ := (fromHash_closed h2 l2).2 (by omega)
  refine ⟨d1, d2, e1, e2, v1, ?_, ?_⟩
  · rw [UInt64.le_iff_toNat_le, v1, v2]
    exact Nat.div_le_div_left hle hpos
  · rw [v1, Nat.le_div_iff_mul_le hpos, Nat.one_mul]

/-- **C38 is false of the code**, first: a hash starting with eight zero bytes makes the call panic. -/
theorem C38_refuted_zero (tail : Bytes) (h : tail.length = 24) :
    difficultyFromHash (List.replicate 8 0 ++ tail) = .panic "integer divide by zero" := by
  refine (fromHash_closed _ (by simp [h])).1 ?_
  unfold hashPrefix
  rw [List.take_left' (by simp)]
  decide

/-- **C38 is false of the code**, second: fifteen hashes in sixteen have difficulty 0, below the minimum. -/
theorem C38_refuted_large (hash : Bytes) (hl : hash.length = 32) :
    difficultyFromHash hash = .ok 0 ↔ 0x0fffffffffffffff < hashPrefix hash := by
  by_cases h0 : hashPrefix hash = 0
  · rw [(fromHash_closed hash hl).1 h0]; simp [h0]
  · obtain ⟨d, e, v⟩ := (fromHash_closed hash hl).2 h0
    rw [e, Out.ok.injEq, ← UInt64.toNat_inj, v]
    rw [show (0 : UInt64).toNat = 0 from rfl, Nat.div_eq_zero_iff]
    omega

end Gringo.Props
