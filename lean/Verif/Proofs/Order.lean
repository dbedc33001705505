import Verif.Go.Basic
import Mathlib.Data.List.Sort
import Mathlib.Tactic.NormNum
/-
`bytesLt` is a strict total order; `isSorted` as pairwise order; sorted permutations are unique up to
elements with equal keys.
-/
namespace Gringo

theorem bytesLt_irrefl (a : Bytes) : bytesLt a a = false := by
  induction a with
  | nil => rfl
  | cons x a ih => simp [bytesLt, ih]

theorem bytesLt_trans {a b c : Bytes} (h1 : bytesLt a b = true) (h2 : bytesLt b c = true) :
    bytesLt a c = true := by
  induction a generalizing b c with
  | nil =>
    cases c with
    | nil => cases b <;> simp [bytesLt] at *
    | cons => simp [bytesLt]
  | cons x a ih =>
    cases b with
    | nil => simp [bytesLt] at h1
    | cons y b =>
      cases c with
      | nil => simp [bytesLt] at h2
      | cons z c =>
        simp only [bytesLt, Bool.or_eq_true, decide_eq_true_eq, Bool.and_eq_true, beq_iff_eq] at *
        rcases h1 with h1 | ⟨rfl, h1⟩
        · rcases h2 with h2 | ⟨rfl, h2⟩
          · exact .inl (UInt8.lt_trans h1 h2)
          · exact .inl h1
        · rcases h2 with h2 | ⟨rfl, h2⟩
          · exact .inl h2
          · exact .inr ⟨rfl, ih h1 h2⟩

theorem bytesLt_asymm {a b : Bytes} (h : bytesLt a b = true) : bytesLt b a = false := by
  cases hb : bytesLt b a with
  | false => rfl
  | true => have := bytesLt_trans h hb; rw [bytesLt_irrefl] at this; cases this

theorem bytesLt_total {a b : Bytes} (h1 : bytesLt a b = false) (h2 : bytesLt b a = false) : a = b := by
  induction a generalizing b with
  | nil => cases b with
    | nil => rfl
    | cons => simp [bytesLt] at h1
  | cons x a ih =>
    cases b with
    | nil => simp [bytesLt] at h2
    | cons y b =>
      simp only [bytesLt, Bool.or_eq_false_iff, decide_eq_false_iff_not, Bool.and_eq_false_iff,
        beq_eq_false_iff_ne] at *
      have hxy : x = y := by
        have a1 := h1.1; have a2 := h2.1
        rw [UInt8.lt_iff_toNat_lt] at a1 a2
        exact UInt8.toNat_inj.1 (by omega)
      subst hxy
      rw [ih]
      · rcases h1.2 with h | h
        · exact absurd rfl h
        · exact h
      · rcases h2.2 with h | h
        · exact absurd rfl h
        · exact h

/-- `a ≤ b` in the order of `bytes.Compare`. -/
theorem bytesLe_trans {a b c : Bytes} (h1 : bytesLt b a = false) (h2 : bytesLt c b = false) :
    bytesLt c a = false := by
  cases h : bytesLt c a with
  | false => rfl
  | true =>
    cases hab : bytesLt a b with
    | true => rw [bytesLt_trans h hab] at h2; cases h2
    | false => rw [bytesLt_total hab h1] at h; rw [h] at h2; cases h2

theorem isSorted_iff_pairwise {α : Type} (key : α → Bytes) (l : List α) :
    isSorted (fun a b => bytesLt (key a) (key b)) l = true ↔
      l.Pairwise (fun a b => bytesLt (key b) (key a) = false) := by
  induction l with
  | nil => simp [isSorted]
  | cons a t ih =>
    cases t with
    | nil => simp [isSorted]
    | cons b t =>
      simp only [isSorted, Bool.and_eq_true, Bool.not_eq_true', List.pairwise_cons] at *
      constructor
      · rintro ⟨h1, h2⟩
        have h2 := ih.1 h2
        refine ⟨?_, h2⟩
        intro c hc
        rcases List.mem_cons.1 hc with rfl | hc
        · exact h1
        · exact bytesLe_trans h1 (h2.1 c hc)
      · rintro ⟨h1, h2⟩
        exact ⟨h1 b (by simp), ih.2 h2⟩

/-- Two sorted permutations of each other are equal if different elements have different keys. -/
theorem sorted_perm_unique {α : Type} (key : α → Bytes) {l l' : List α} (hp : l.Perm l')
    (hinj : ∀ a ∈ l, ∀ b ∈ l, key a = key b → a = b)
    (h1 : isSorted (fun a b => bytesLt (key a) (key b)) l = true)
    (h2 : isSorted (fun a b => bytesLt (key a) (key b)) l' = true) : l = l' := by
  rw [isSorted_iff_pairwise] at h1 h2
  refine hp.eq_of_pairwise ?_ h1 h2
  intro a b ha hb hab hba
  have hb' : b ∈ l := hp.mem_iff.2 hb
  exact hinj a ha b hb' (bytesLt_total hba hab)

/-- Insertion sort sorts by a byte-string key. -/
theorem insertionSort_sorted {α : Type} (key : α → Bytes) (l : List α) :
    isSorted (fun a b => bytesLt (key a) (key b))
      (l.insertionSort fun a b => bytesLt (key b) (key a) = false) = true := by
  rw [isSorted_iff_pairwise]
  have : Std.Total (fun a b => bytesLt (key b) (key a) = false) := ⟨fun a b => by
    cases h : bytesLt (key b) (key a) with
    | false => exact .inl rfl
    | true => exact .inr (bytesLt_asymm h)⟩
  have : IsTrans α (fun a b => bytesLt (key b) (key a) = false) :=
    ⟨fun a b c hab hbc => bytesLe_trans hab hbc⟩
  exact List.pairwise_insertionSort _ l

end Gringo
