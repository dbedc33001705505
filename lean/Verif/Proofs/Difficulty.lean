import Verif.Model.Difficulty
import Verif.Spec.Difficulty
import Verif.Proofs.Order
/-
Closed form of the difficulty adjustment loop.
-/
namespace Gringo
open Gringo.Spec

theorem diffScan_low (bl : List BlockHeader) : ∀ (n : Nat) (st : DiffScan), n ≤ 60 → n ≤ bl.length →
    (diffScan bl n st).sumDiff.toNat =
        (st.sumDiff.toNat + ((bl.take n).map (·.difficulty.toNat)).sum) % 2 ^ 64 ∧
      (diffScan bl n st).windowBegin.length = st.windowBegin.length + min n 11 ∧
      (diffScan bl n st).windowEnd = st.windowEnd := by
  intro n
  induction n with
  | zero => intro st _ _; simp [diffScan]
  | succ i ih =>
    intro st h60 hl
    have hi : i < bl.length := by omega
    have hlt : i < DifficultyAdjustWindow := by unfold DifficultyAdjustWindow; omega
    rw [diffScan, List.getElem?_eq_getElem hi]
    simp only [if_pos hlt]
    obtain ⟨a, b, c⟩ := ih ⟨st.sumDiff + bl[i].difficulty,
      if i < MedianTimeWindow then st.windowBegin ++ [bl[i].timestamp] else st.windowBegin, st.windowEnd⟩
      (by omega) (by omega)
    refine ⟨?_, ?_, c⟩
    · rw [a, List.take_add_one, List.getElem?_eq_getElem hi]
      simp only [UInt64.toNat_add, Option.toList_some, List.map_append, List.map_cons, List.map_nil,
        List.sum_append, List.sum_cons, List.sum_nil]
      omega
    · rw [b]
      have : MedianTimeWindow = 11 := rfl
      by_cases h : i < MedianTimeWindow
      · simp only [if_pos h, List.length_append, List.length_singleton]; omega
      · simp only [if_neg h]; omega

theorem diffScan_mid (bl : List BlockHeader) : ∀ (k : Nat) (st : DiffScan), k ≤ 11 → 60 + k ≤ bl.length →
    (diffScan bl (60 + k) st).sumDiff.toNat =
        (st.sumDiff.toNat + frontSum bl) % 2 ^ 64 ∧
      (diffScan bl (60 + k) st).windowBegin.length = st.windowBegin.length + 11 ∧
      (diffScan bl (60 + k) st).windowEnd.length = st.windowEnd.length + k := by
  intro k
  induction k with
  | zero =>
    intro st _ hl
    obtain ⟨a, b, c⟩ := diffScan_low bl 60 st (Nat.le_refl _) hl
    exact ⟨a, b, by rw [Nat.add_zero, c]; rfl⟩
  | succ i ih =>
    intro st hk hl
    have hi : 60 + i < bl.length := by omega
    have h1 : ¬ 60 + i < DifficultyAdjustWindow := by unfold DifficultyAdjustWindow; omega
    have h2 : 60 + i < DifficultyAdjustWindow + MedianTimeWindow := by
      unfold DifficultyAdjustWindow MedianTimeWindow; omega
    rw [show 60 + (i + 1) = (60 + i) + 1 from rfl, diffScan, List.getElem?_eq_getElem hi]
    simp only [if_neg h1, if_pos h2]
    obtain ⟨a, b, c⟩ := ih { st with windowEnd := st.windowEnd ++ [bl[60 + i].timestamp] } (by omega) (by omega)
    refine ⟨a, b, ?_⟩
    rw [c]
    simp only [List.length_append, List.length_singleton]
    omega

theorem diffScan_high (bl : List BlockHeader) (n : Nat) (st : DiffScan) (h : 71 < n) :
    diffScan bl n st = st := by
  obtain ⟨i, rfl⟩ : ∃ i, n = i + 1 := ⟨n - 1, by omega⟩
  have h1 : ¬ i < DifficultyAdjustWindow := by unfold DifficultyAdjustWindow; omega
  have h2 : ¬ i < DifficultyAdjustWindow + MedianTimeWindow := by
    unfold DifficultyAdjustWindow MedianTimeWindow; omega
  rw [diffScan]
  split
  · rfl
  · rw [if_neg h1, if_neg h2]

/-- The whole function in closed form. -/
theorem nextDifficulty_closed (bl : List BlockHeader) :
    ∃ d : UInt64, nextDifficulty bl = .ok d ∧
      d.toNat = if bl.length = 0 then 0 else if bl.length = 71 then
        max 1 (frontSum bl % 2 ^ 64 / 60 * 3600 % 2 ^ 64 / 7200) else 1 := by
  unfold nextDifficulty
  by_cases h0 : bl.length = 0
  · exact ⟨0, by rw [if_pos h0]; rfl, by rw [if_pos h0]; rfl⟩
  rw [if_neg h0, if_neg h0]
  by_cases h71 : bl.length = 71
  · rw [if_pos h71]
    obtain ⟨a, b, c⟩ := diffScan_mid bl 11 {} (Nat.le_refl _) (by omega)
    have e : 60 + 11 = bl.length := by omega
    rw [e] at a b c
    simp only at a b c ⊢
    rw [if_neg (by rw [c]; decide)]
    generalize diffScan bl bl.length {} = st at a b c ⊢
    have hb : (sortTimes st.windowBegin).length = 11 := by
      unfold sortTimes; rw [List.length_mergeSort, b]; rfl
    have he : (sortTimes st.windowEnd).length = 11 := by
      unfold sortTimes; rw [List.length_mergeSort, c]; rfl
    rw [List.getElem?_eq_getElem (by rw [hb]; decide), List.getElem?_eq_getElem (by rw [he]; decide)]
    simp only
    have hts : ∀ t : Int, (if (if t < LowerTimeBound then LowerTimeBound else t) > UpperTimeBound then
        UpperTimeBound else (if t < LowerTimeBound then LowerTimeBound else t)) = 7200 := by
      intro t
      have : LowerTimeBound = 7200 := rfl
      have : UpperTimeBound = 7200 := rfl
      split <;> split <;> omega
    rw [hts, if_neg (by decide)]
    refine ⟨_, rfl, ?_⟩
    have hd : (st.sumDiff / UInt64.ofNat DifficultyAdjustWindow * UInt64.ofInt BlockTimeWindow /
        UInt64.ofInt 7200).toNat = frontSum bl % 2 ^ 64 / 60 * 3600 % 2 ^ 64 / 7200 := by
      rw [UInt64.toNat_div, UInt64.toNat_mul, UInt64.toNat_div, a]
      simp only [show (UInt64.ofInt 7200).toNat = 7200 from rfl,
        show (UInt64.ofInt BlockTimeWindow).toNat = 3600 from rfl,
        show (UInt64.ofNat DifficultyAdjustWindow).toNat = 60 from rfl,
        show ((0 : UInt64).toNat) = 0 from rfl, Nat.zero_add]
    rw [← hd]
    generalize st.sumDiff / UInt64.ofNat DifficultyAdjustWindow * UInt64.ofInt BlockTimeWindow /
        UInt64.ofInt 7200 = q
    have hq : q > MinimumDifficulty ↔ 1 < q.toNat := UInt64.lt_iff_toNat_lt
    have h1 : MinimumDifficulty.toNat = 1 := rfl
    by_cases h : q > MinimumDifficulty
    · rw [if_pos h]; rw [hq] at h; omega
    · rw [if_neg h]; rw [hq] at h; omega
  · rw [if_neg h71]
    have hw : (diffScan bl bl.length {}).windowEnd.length < MedianTimeWindow := by
      have hm : MedianTimeWindow = 11 := rfl
      by_cases h1 : bl.length ≤ 60
      · rw [(diffScan_low bl bl.length {} h1 (Nat.le_refl _)).2.2]; decide
      · by_cases h2 : bl.length ≤ 71
        · obtain ⟨-, -, c⟩ := diffScan_mid bl (bl.length - 60) {} (by omega) (by omega)
          rw [show 60 + (bl.length - 60) = bl.length by omega] at c
          rw [c, hm]; simp only [List.length_nil]; omega
        · rw [diffScan_high bl _ _ (by omega)]; decide
    exact ⟨MinimumDifficulty, by simp only; rw [if_pos hw], rfl⟩

end Gringo
