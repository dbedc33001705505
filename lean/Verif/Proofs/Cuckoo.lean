import Verif.Spec.Cycle
import Mathlib.Data.List.Nodup
import Mathlib.Data.List.Perm.Subperm
/-
The cycle walk: invariant and consequences.
-/
namespace Gringo.Cuckoo
open Gringo.Spec

theorem sameU_symm {es : List Edge} {i j : Nat} (h : SameU es i j) : SameU es j i := by
  obtain ⟨a, b, h1, h2, h3⟩ := h; exact ⟨b, a, h2, h1, h3.symm⟩

theorem sameV_symm {es : List Edge} {i j : Nat} (h : SameV es i j) : SameV es j i := by
  obtain ⟨a, b, h1, h2, h3⟩ := h; exact ⟨b, a, h2, h1, h3.symm⟩

theorem sameU_trans {es : List Edge} {i j k : Nat} (h : SameU es i j) (h' : SameU es j k) : SameU es i k := by
  obtain ⟨a, b, h1, h2, h3⟩ := h
  obtain ⟨c, d, h4, h5, h6⟩ := h'
  rw [h2] at h4; cases h4
  exact ⟨a, d, h1, h5, h3.trans h6⟩

theorem sameV_trans {es : List Edge} {i j k : Nat} (h : SameV es i j) (h' : SameV es j k) : SameV es i k := by
  obtain ⟨a, b, h1, h2, h3⟩ := h
  obtain ⟨c, d, h4, h5, h6⟩ := h'
  rw [h2] at h4; cases h4
  exact ⟨a, d, h1, h5, h3.trans h6⟩

theorem sameU_lt {es : List Edge} {i j : Nat} (h : SameU es i j) : i < es.length ∧ j < es.length := by
  obtain ⟨a, b, h1, h2, -⟩ := h
  exact ⟨(List.getElem?_eq_some_iff.1 h1).1, (List.getElem?_eq_some_iff.1 h2).1⟩

theorem sameV_lt {es : List Edge} {i j : Nat} (h : SameV es i j) : i < es.length ∧ j < es.length := by
  obtain ⟨a, b, h1, h2, -⟩ := h
  exact ⟨(List.getElem?_eq_some_iff.1 h1).1, (List.getElem?_eq_some_iff.1 h2).1⟩

theorem matchU_iff {es : List Edge} {w : Walk} {j : Nat} (hi : w.i < es.length) (hj : j < es.length) :
    matchU es w j = true ↔ j ≠ w.i ∧ w.usedU j = false ∧ SameU es w.i j := by
  unfold matchU SameU
  rw [List.getElem?_eq_getElem hi, List.getElem?_eq_getElem hj]
  simp [and_assoc]

theorem matchV_iff {es : List Edge} {w : Walk} {j : Nat} (hi : w.i < es.length) (hj : j < es.length) :
    matchV es w j = true ↔ j ≠ w.i ∧ w.usedV j = false ∧ SameV es w.i j := by
  unfold matchV SameV
  rw [List.getElem?_eq_getElem hi, List.getElem?_eq_getElem hj]
  simp [and_assoc]

/-- What one turn does, in terms of the graph. -/
inductive Step (es : List Edge) (w : Walk) : Walk → Prop
  | u (j : Nat) (even : w.cycle % 2 = 0) (ne : j ≠ w.i) (fresh : w.usedU j = false) (same : SameU es w.i j) :
      Step es w { i := j, cycle := w.cycle + 1, usedU := setFlag (setFlag w.usedU w.i) j, usedV := w.usedV }
  | v (j : Nat) (odd : w.cycle % 2 = 1) (ne : j ≠ w.i) (fresh : w.usedV j = false) (same : SameV es w.i j) :
      Step es w { i := j, cycle := w.cycle + 1, usedU := w.usedU, usedV := setFlag (setFlag w.usedV w.i) j }

theorem walkStep_some {es : List Edge} {w w' : Walk} (hi : w.i < es.length) (h : walkStep es w = some w') :
    Step es w w' := by
  unfold walkStep at h
  by_cases hc : w.cycle % 2 = 0
  · rw [if_pos hc] at h
    cases hf : (List.range es.length).find? (matchU es w) with
    | none => rw [hf] at h; cases h
    | some j =>
      rw [hf] at h
      cases h
      have hj : j < es.length := List.mem_range.1 (List.mem_of_find?_eq_some hf)
      obtain ⟨a, b, c⟩ := (matchU_iff hi hj).1 (List.find?_some hf)
      exact .u j hc a b c
  · rw [if_neg hc] at h
    cases hf : (List.range es.length).find? (matchV es w) with
    | none => rw [hf] at h; cases h
    | some j =>
      rw [hf] at h
      cases h
      have hj : j < es.length := List.mem_range.1 (List.mem_of_find?_eq_some hf)
      obtain ⟨a, b, c⟩ := (matchV_iff hi hj).1 (List.find?_some hf)
      exact .v j (by omega) a b c

theorem walkStep_none {es : List Edge} {w : Walk} (hi : w.i < es.length) (h : walkStep es w = none) :
    (w.cycle % 2 = 0 → ∀ j, j ≠ w.i → SameU es w.i j → w.usedU j = true) ∧
    (w.cycle % 2 = 1 → ∀ j, j ≠ w.i → SameV es w.i j → w.usedV j = true) := by
  unfold walkStep at h
  by_cases hc : w.cycle % 2 = 0
  · rw [if_pos hc] at h
    refine ⟨fun _ j hne hs => ?_, by omega⟩
    cases hf : (List.range es.length).find? (matchU es w) with
    | some j => rw [hf] at h; cases h
    | none =>
      have := List.find?_eq_none.1 hf j (List.mem_range.2 (sameU_lt hs).2)
      rw [matchU_iff hi (sameU_lt hs).2] at this
      cases hu : w.usedU j with
      | true => rfl
      | false => exact absurd ⟨hne, hu, hs⟩ this
  · rw [if_neg hc] at h
    refine ⟨by omega, fun _ j hne hs => ?_⟩
    cases hf : (List.range es.length).find? (matchV es w) with
    | some j => rw [hf] at h; cases h
    | none =>
      have := List.find?_eq_none.1 hf j (List.mem_range.2 (sameV_lt hs).2)
      rw [matchV_iff hi (sameV_lt hs).2] at this
      cases hu : w.usedV j with
      | true => rfl
      | false => exact absurd ⟨hne, hu, hs⟩ this

/-- The invariant of the walk. `tr` is the list of edges the walk moved to, latest first; the walk started
on edge 0, which is not in `tr` unless the walk came back to it. -/
structure Inv (es : List Edge) (w : Walk) (tr : List Nat) : Prop where
  cur : w.i = tr.headD 0
  len : w.cycle = tr.length
  nodup : tr.Nodup
  range : ∀ x ∈ tr, x < es.length
  pos : 0 < es.length
  evenU : w.cycle % 2 = 0 → ∀ x, w.usedU x = true ↔ tr ≠ [] ∧ (x = 0 ∨ x ∈ tr.tail)
  evenV : w.cycle % 2 = 0 → ∀ x, w.usedV x = true ↔ x ∈ tr
  oddU : w.cycle % 2 = 1 → ∀ x, w.usedU x = true ↔ x = 0 ∨ x ∈ tr
  oddV : w.cycle % 2 = 1 → ∀ x, w.usedV x = true ↔ x ∈ tr.tail
  oddHead : w.cycle % 2 = 1 → w.i ≠ 0
  pairU : ∀ x, w.usedU x = true → ∃ y, y ≠ x ∧ w.usedU y = true ∧ SameU es x y
  pairV : ∀ x, w.usedV x = true → ∃ y, y ≠ x ∧ w.usedV y = true ∧ SameV es x y
  reach : ∀ x ∈ tr, Connected es 0 x
  first : tr ≠ [] → ∃ a, a ≠ 0 ∧ w.usedU a = true ∧ SameU es 0 a
  branch : 0 ∈ tr.tail → ∃ a b, a ≠ 0 ∧ b ≠ 0 ∧ a ≠ b ∧ SameU es 0 a ∧ SameU es 0 b

theorem Inv.init {es : List Edge} (h : 0 < es.length) : Inv es walkInit [] := by
  constructor <;> simp [walkInit, h]

theorem Inv.i_lt {es : List Edge} {w : Walk} {tr : List Nat} (h : Inv es w tr) : w.i < es.length := by
  rw [h.cur]
  cases tr with
  | nil => exact h.pos
  | cons a t => exact h.range a (List.mem_cons_self ..)

theorem Inv.reach_i {es : List Edge} {w : Walk} {tr : List Nat} (h : Inv es w tr) : Connected es 0 w.i := by
  rw [h.cur]
  cases tr with
  | nil => exact .refl
  | cons a t => exact h.reach a (List.mem_cons_self ..)

theorem setFlag_iff (f : Nat → Bool) (i x : Nat) : setFlag f i x = true ↔ x = i ∨ f x = true := by
  unfold setFlag; split <;> simp_all

theorem Inv.step {es : List Edge} {w w' : Walk} {tr : List Nat} (h : Inv es w tr) (hs : Step es w w') :
    Inv es w' (w'.i :: tr) := by
  cases hs with
  | u j even ne fresh same =>
    have hU := h.evenU even
    have hV := h.evenV even
    have hj0 : tr ≠ [] → j ≠ 0 ∧ j ∉ tr.tail := by
      intro hne
      have := (hU j).not.1 (by simp [fresh])
      constructor
      · intro h0; exact this ⟨hne, .inl h0⟩
      · intro h0; exact this ⟨hne, .inr h0⟩
    have hcur := h.cur
    have hjtr : j ∉ tr := by
      cases tr with
      | nil => simp
      | cons a t =>
        have := hj0 (by simp)
        simp only [List.headD_cons] at hcur
        simp only [List.tail_cons] at this
        rw [List.mem_cons]
        rintro (rfl | h')
        · exact ne hcur.symm
        · exact this.2 h'
    have hjne0 : j ≠ 0 := by
      cases tr with
      | nil => simpa [hcur] using ne
      | cons a t => exact (hj0 (by simp)).1
    have hfl : ∀ x, setFlag (setFlag w.usedU w.i) j x = true ↔ x = 0 ∨ x ∈ j :: tr := by
      intro x
      rw [setFlag_iff, setFlag_iff, hU, List.mem_cons, hcur]
      cases tr with
      | nil => simp; tauto
      | cons a t => simp; tauto
    refine ⟨rfl, by simp [h.len], List.nodup_cons.2 ⟨hjtr, h.nodup⟩, ?_, h.pos, ?_, ?_, ?_, ?_, ?_, ?_, ?_,
      ?_, ?_, ?_⟩
    · intro x hx
      rcases List.mem_cons.1 hx with rfl | hx
      · exact (sameU_lt same).2
      · exact h.range x hx
    · intro he; simp only at he; omega
    · intro he; simp only at he; omega
    · intro _; exact hfl
    · intro _ x; simp only [List.tail_cons]; exact hV x
    · intro _; exact hjne0
    · intro x hx
      simp only at hx ⊢
      rw [setFlag_iff, setFlag_iff] at hx
      rcases hx with rfl | rfl | hx
      · exact ⟨w.i, ne.symm, by rw [setFlag_iff, setFlag_iff]; exact .inr (.inl rfl), sameU_symm same⟩
      · exact ⟨j, ne, by rw [setFlag_iff]; exact .inl rfl, same⟩
      · obtain ⟨y, h1, h2, h3⟩ := h.pairU x hx
        exact ⟨y, h1, by rw [setFlag_iff, setFlag_iff]; exact .inr (.inr h2), h3⟩
    · exact h.pairV
    · intro x hx
      rcases List.mem_cons.1 hx with rfl | hx
      · exact h.reach_i.tail (.inl same)
      · exact h.reach x hx
    · intro _
      by_cases htr : tr = []
      · refine ⟨j, hjne0, by simp only; rw [setFlag_iff]; exact .inl rfl, ?_⟩
        rw [htr] at hcur
        simpa [hcur] using same
      · obtain ⟨a, h1, h2, h3⟩ := h.first htr
        exact ⟨a, h1, by simp only; rw [setFlag_iff, setFlag_iff]; exact .inr (.inr h2), h3⟩
    · intro h0
      simp only [List.tail_cons] at h0
      by_cases ht : 0 ∈ tr.tail
      · exact h.branch ht
      · have htr : tr ≠ [] := List.ne_nil_of_mem h0
        have hi0 : w.i = 0 := by
          cases tr with
          | nil => exact hcur
          | cons a t =>
            simp only [List.tail_cons] at ht
            rcases List.mem_cons.1 h0 with h0 | h0
            · rw [hcur, List.headD_cons, h0]
            · exact absurd h0 ht
        obtain ⟨a, h1, h2, h3⟩ := h.first htr
        refine ⟨a, j, h1, hjne0, ?_, h3, by rw [hi0] at same; exact same⟩
        rintro rfl
        rw [fresh] at h2; cases h2
  | v j odd ne fresh same =>
    have hU := h.oddU odd
    have hV := h.oddV odd
    have hne : tr ≠ [] := by
      intro h0
      have := h.len
      rw [h0] at this
      simp at this
      omega
    have hjt : j ∉ tr.tail := fun h' => by
      have := (hV j).2 h'
      rw [fresh] at this; cases this
    have hcur := h.cur
    have hjtr : j ∉ tr := by
      cases tr with
      | nil => simp
      | cons a t =>
        simp only [List.headD_cons] at hcur
        rw [List.mem_cons]
        rintro (rfl | h')
        · exact ne hcur.symm
        · exact hjt h'
    have hfl : ∀ x, setFlag (setFlag w.usedV w.i) j x = true ↔ x ∈ j :: tr := by
      intro x
      rw [setFlag_iff, setFlag_iff, hV, List.mem_cons, hcur]
      cases tr with
      | nil => exact absurd rfl hne
      | cons a t => simp
    refine ⟨rfl, by simp [h.len], List.nodup_cons.2 ⟨hjtr, h.nodup⟩, ?_, h.pos, ?_, ?_, ?_, ?_, ?_, ?_, ?_,
      ?_, ?_, ?_⟩
    · intro x hx
      rcases List.mem_cons.1 hx with rfl | hx
      · exact (sameV_lt same).2
      · exact h.range x hx
    · intro _ x
      simp only [List.tail_cons]
      rw [hU]
      simp
    · intro _; exact hfl
    · intro he; simp only at he; omega
    · intro he; simp only at he; omega
    · intro he; simp only at he; omega
    · exact h.pairU
    · intro x hx
      simp only at hx ⊢
      rw [setFlag_iff, setFlag_iff] at hx
      rcases hx with rfl | rfl | hx
      · exact ⟨w.i, ne.symm, by rw [setFlag_iff, setFlag_iff]; exact .inr (.inl rfl), sameV_symm same⟩
      · exact ⟨j, ne, by rw [setFlag_iff]; exact .inl rfl, same⟩
      · obtain ⟨y, h1, h2, h3⟩ := h.pairV x hx
        exact ⟨y, h1, by rw [setFlag_iff, setFlag_iff]; exact .inr (.inr h2), h3⟩
    · intro x hx
      rcases List.mem_cons.1 hx with rfl | hx
      · exact h.reach_i.tail (.inr same)
      · exact h.reach x hx
    · intro _; exact h.first hne
    · intro h0
      simp only [List.tail_cons] at h0
      by_cases ht : 0 ∈ tr.tail
      · exact h.branch ht
      · exfalso
        have hi0 : w.i = 0 := by
          cases tr with
          | nil => exact hcur
          | cons a t =>
            simp only [List.tail_cons] at ht
            rcases List.mem_cons.1 h0 with h0 | h0
            · rw [hcur, List.headD_cons, h0]
            · exact absurd h0 ht
        exact h.oddHead odd hi0

theorem nodup_length_le {l : List Nat} {n : Nat} (hn : l.Nodup) (h : ∀ x ∈ l, x < n) : l.length ≤ n := by
  have : l.Subperm (List.range n) := hn.subperm (fun x hx => List.mem_range.2 (h x hx))
  simpa using this.length_le

theorem Inv.le {es : List Edge} {w : Walk} {tr : List Nat} (h : Inv es w tr) : w.cycle ≤ es.length := by
  rw [h.len]; exact nodup_length_le h.nodup h.range

theorem walk_inv {es : List Edge} : ∀ (fuel : Nat) (w : Walk) (tr : List Nat), Inv es w tr →
    ∃ tr', Inv es (walk es fuel w) tr' := by
  intro fuel
  induction fuel with
  | zero => intro w tr h; exact ⟨tr, h⟩
  | succ f ih =>
    intro w tr h
    rw [walk]
    cases hs : walkStep es w with
    | none => exact ⟨tr, h⟩
    | some w' => exact ih w' _ (h.step (walkStep_some h.i_lt hs))

theorem walk_fuel {es : List Edge} : ∀ (fuel : Nat) (w : Walk) (tr : List Nat), Inv es w tr →
    es.length < w.cycle + fuel → walkStep es (walk es fuel w) = none := by
  intro fuel
  induction fuel with
  | zero => intro w tr h hl; have := h.le; omega
  | succ f ih =>
    intro w tr h hl
    rw [walk]
    cases hs : walkStep es w with
    | none => exact hs
    | some w' =>
      have st := walkStep_some h.i_lt hs
      have : w'.cycle = w.cycle + 1 := by cases st <;> rfl
      exact ih w' _ (h.step st) (by omega)

/-- The walk has always reached its `break` when the fuel given in the model is used up: the fuel does not
cut the loop short. -/
theorem walk_stops (es : List Edge) : walkStep es (walk es (es.length + 1) walkInit) = none := by
  by_cases h : 0 < es.length
  · exact walk_fuel _ _ [] (Inv.init h) (by simp [walkInit])
  · have : es = [] := List.length_eq_zero_iff.1 (by omega)
    subst this
    rfl

theorem final_inv {es : List Edge} (h : 0 < es.length) :
    ∃ w tr, Inv es w tr ∧ walkStep es w = none ∧ findCycleLength es = w.cycle := by
  obtain ⟨tr, hi⟩ := walk_inv (es.length + 1) walkInit [] (Inv.init h)
  exact ⟨_, tr, hi, walk_stops es, rfl⟩

theorem complete {es : List Edge} (hc : IsCycle es) : findCycleLength es = es.length := by
  have hpos : 0 < es.length := List.length_pos_iff.2 hc.nonempty
  obtain ⟨w, tr, h, hs, e⟩ := final_inv hpos
  obtain ⟨sU, sV⟩ := walkStep_none h.i_lt hs
  rw [e]
  have hparity : w.cycle % 2 = 0 := by
    rcases Nat.mod_two_eq_zero_or_one w.cycle with he | ho
    · exact he
    exfalso
    obtain ⟨p, ⟨hp1, hp2⟩, -⟩ := hc.twoV w.i h.i_lt
    have hpu := sV ho p hp1 hp2
    obtain ⟨y, hy1, hy2, hy3⟩ := h.pairV p hpu
    obtain ⟨q, -, hq⟩ := hc.twoV p (sameV_lt hp2).2
    have e1 := hq y ⟨hy1, hy3⟩
    have e2 := hq w.i ⟨hp1.symm, sameV_symm hp2⟩
    rw [e1, ← e2] at hy2
    have hin := (h.oddV ho w.i).1 hy2
    have hcur := h.cur
    have hnd := h.nodup
    cases htr : tr with
    | nil => rw [htr] at hin; simp at hin
    | cons a t =>
      rw [htr] at hin hcur hnd
      simp only [List.tail_cons] at hin
      simp only [List.headD_cons] at hcur
      rw [hcur] at hin
      exact (List.nodup_cons.1 hnd).1 hin
  have hU := h.evenU hparity
  have hV := h.evenV hparity
  obtain ⟨p, ⟨hp1, hp2⟩, -⟩ := hc.twoU w.i h.i_lt
  have hpu := sU hparity p hp1 hp2
  have hiu : w.usedU w.i = true := by
    obtain ⟨y, hy1, hy2, hy3⟩ := h.pairU p hpu
    obtain ⟨q, -, hq⟩ := hc.twoU p (sameU_lt hp2).2
    rw [hq y ⟨hy1, hy3⟩, ← hq w.i ⟨hp1.symm, sameU_symm hp2⟩] at hy2
    exact hy2
  obtain ⟨hne, hi0⟩ := (hU w.i).1 hiu
  have hi0' : w.i = 0 := by
    rcases hi0 with h0 | h0
    · exact h0
    · exfalso
      have hcur := h.cur
      have hnd := h.nodup
      cases htr : tr with
      | nil => exact hne htr
      | cons a t =>
        rw [htr] at h0 hcur hnd
        simp only [List.tail_cons] at h0
        simp only [List.headD_cons] at hcur
        rw [hcur] at h0
        exact (List.nodup_cons.1 hnd).1 h0
  have h0tr : 0 ∈ tr := by
    have hcur := h.cur
    cases htr : tr with
    | nil => exact absurd htr hne
    | cons a t =>
      rw [htr] at hcur
      simp only [List.headD_cons] at hcur
      rw [← hi0', hcur]
      exact List.mem_cons_self ..
  have hUtr : ∀ x, w.usedU x = true ↔ x ∈ tr := by
    intro x
    rw [hU]
    have hcur := h.cur
    cases htr : tr with
    | nil => exact absurd htr hne
    | cons a t =>
      rw [htr] at hcur
      simp only [List.headD_cons] at hcur
      simp only [List.tail_cons, List.mem_cons]
      rw [← hcur, hi0']
      simp
  have closed : ∀ y, Connected es 0 y → y ∈ tr := by
    intro y hy
    induction hy with
    | refl => exact h0tr
    | tail _ hstep ih =>
      rename_i b c _
      by_cases hbc : c = b
      · rw [hbc]; exact ih
      rcases hstep with hst | hst
      · obtain ⟨z, hz1, hz2, hz3⟩ := h.pairU b ((hUtr b).2 ih)
        obtain ⟨q, -, hq⟩ := hc.twoU b (sameU_lt hst).1
        rw [hq z ⟨hz1, hz3⟩, ← hq c ⟨hbc, hst⟩] at hz2
        exact (hUtr c).1 hz2
      · obtain ⟨z, hz1, hz2, hz3⟩ := h.pairV b ((hV b).2 ih)
        obtain ⟨q, -, hq⟩ := hc.twoV b (sameV_lt hst).1
        rw [hq z ⟨hz1, hz3⟩, ← hq c ⟨hbc, hst⟩] at hz2
        exact (hV c).1 hz2
  have hall : List.range es.length ⊆ tr := fun x hx =>
    closed x (hc.connected 0 hpos x (List.mem_range.1 hx))
  have h1 := (List.nodup_range.subperm hall).length_le
  rw [List.length_range, ← h.len] at h1
  exact Nat.le_antisymm h.le h1

theorem sound {es : List Edge} (hne : es ≠ []) (nb : NoBranch es) (hf : findCycleLength es = es.length) :
    IsCycle es := by
  have hpos : 0 < es.length := List.length_pos_iff.2 hne
  obtain ⟨w, tr, h, hs, e⟩ := final_inv hpos
  rw [hf] at e
  have hlen : tr.length = es.length := by rw [← h.len, e]
  have hsub : tr.Subperm (List.range es.length) := h.nodup.subperm (fun x hx => List.mem_range.2 (h.range x hx))
  have hperm : tr.Perm (List.range es.length) := hsub.perm_of_length_le (by simp [hlen])
  have hall : ∀ x, x ∈ tr ↔ x < es.length := fun x => by rw [hperm.mem_iff, List.mem_range]
  have h0 : 0 ∈ tr := (hall 0).2 hpos
  have htail : 0 ∉ tr.tail := by
    intro ht
    obtain ⟨a, b, ha, hb, hab, h1, h2⟩ := h.branch ht
    rcases nb.atU 0 a b h1 h2 with h' | h' | h'
    · exact ha h'.symm
    · exact hb h'.symm
    · exact hab h'
  have hi0 : w.i = 0 := by
    have hcur := h.cur
    cases htr : tr with
    | nil => rw [htr] at h0; simp at h0
    | cons a t =>
      rw [htr] at hcur h0 htail
      simp only [List.headD_cons] at hcur
      rcases List.mem_cons.1 h0 with h0 | h0
      · rw [hcur, h0]
      · exact absurd h0 htail
  have heven : w.cycle % 2 = 0 := by
    rcases Nat.mod_two_eq_zero_or_one w.cycle with he | ho
    · exact he
    · exact absurd hi0 (h.oddHead ho)
  have htr0 : tr ≠ [] := List.ne_nil_of_mem h0
  have hU : ∀ x < es.length, w.usedU x = true := by
    intro x hx
    rw [h.evenU heven]
    refine ⟨htr0, ?_⟩
    have hm := (hall x).2 hx
    have hcur := h.cur
    cases htr : tr with
    | nil => exact absurd htr htr0
    | cons a t =>
      rw [htr] at hm hcur
      simp only [List.headD_cons] at hcur
      rcases List.mem_cons.1 hm with hm | hm
      · left; rw [hm, ← hcur, hi0]
      · right; exact hm
  have hV : ∀ x < es.length, w.usedV x = true := by
    intro x hx
    rw [h.evenV heven]
    exact (hall x).2 hx
  have symm : ∀ {x y}, Connected es x y → Connected es y x := by
    intro x y hxy
    induction hxy with
    | refl => exact .refl
    | tail _ hst ih =>
      refine Relation.ReflTransGen.head ?_ ih
      rcases hst with hst | hst
      · exact .inl (sameU_symm hst)
      · exact .inr (sameV_symm hst)
  refine ⟨hne, ?_, ?_, ?_⟩
  · intro i hi
    obtain ⟨y, h1, h2, h3⟩ := h.pairU i (hU i hi)
    refine ⟨y, ⟨h1, h3⟩, ?_⟩
    rintro z ⟨hz1, hz2⟩
    rcases nb.atU i y z h3 hz2 with h' | h' | h'
    · exact absurd h'.symm h1
    · exact absurd h'.symm hz1
    · exact h'.symm
  · intro i hi
    obtain ⟨y, h1, h2, h3⟩ := h.pairV i (hV i hi)
    refine ⟨y, ⟨h1, h3⟩, ?_⟩
    rintro z ⟨hz1, hz2⟩
    rcases nb.atV i y z h3 hz2 with h' | h' | h'
    · exact absurd h'.symm h1
    · exact absurd h'.symm hz1
    · exact h'.symm
  · intro i hi j hj
    exact (symm (h.reach i ((hall i).2 hi))).trans (h.reach j ((hall j).2 hj))

theorem noBranch_of_cycle {es : List Edge} (hc : IsCycle es) : NoBranch es := by
  constructor
  · intro i j k h1 h2
    by_cases hij : i = j
    · exact .inl hij
    by_cases hik : i = k
    · exact .inr (.inl hik)
    obtain ⟨q, -, hq⟩ := hc.twoU i (sameU_lt h1).1
    exact .inr (.inr ((hq j ⟨fun h => hij h.symm, h1⟩).trans (hq k ⟨fun h => hik h.symm, h2⟩).symm))
  · intro i j k h1 h2
    by_cases hij : i = j
    · exact .inl hij
    by_cases hik : i = k
    · exact .inr (.inl hik)
    obtain ⟨q, -, hq⟩ := hc.twoV i (sameV_lt h1).1
    exact .inr (.inr ((hq j ⟨fun h => hij h.symm, h1⟩).trans (hq k ⟨fun h => hik h.symm, h2⟩).symm))

end Gringo.Cuckoo
