import Mathlib.Data.List.Perm.Basic
import Verif.Model.Shared
/-
Lemmas about goroutines that sort one list.
-/
namespace Gringo.Shared
variable {α : Type}

/-- All indices of the program are below `n`, whatever `Less` answers. -/
def Prog.InRange (n : Nat) : Prog → Prop
  | .done => True
  | .less i j k => i < n ∧ j < n ∧ ∀ b, (k b).InRange n
  | .swap i j k => i < n ∧ j < n ∧ k.InRange n

/-- Every swap stays within one class of positions. -/
def Prog.Within (κ : Nat → Nat) : Prog → Prop
  | .done => True
  | .less _ _ k => ∀ b, (k b).Within κ
  | .swap i j k => κ i = κ j ∧ k.Within κ

/-- The program asks questions only and swaps nothing when it runs on `m`. -/
def Prog.Quiet (less : α → α → Bool) (m : List α) : Prog → Prop
  | .done => True
  | .less i j k => ∃ x y, m[i]? = some x ∧ m[j]? = some y ∧ (k (less x y)).Quiet less m
  | .swap _ _ _ => False

/-- Steps of one goroutine. -/
inductive TSteps (less : α → α → Bool) : List α × Thread α → List α × Thread α → Prop where
  | refl {s} : TSteps less s s
  | head {s t u} (step : TStep less s t) (h : TSteps less t u) : TSteps less s u

theorem TSteps.trans {less : α → α → Bool} {a b c : List α × Thread α} (h1 : TSteps less a b)
    (h2 : TSteps less b c) : TSteps less a c := by
  induction h1 with
  | refl => exact h2
  | head s _ ih => exact .head s (ih h2)

theorem Steps.trans {less : α → α → Bool} {a b c : Sys α} (h1 : Steps less a b) (h2 : Steps less b c) :
    Steps less a c := by
  induction h2 with
  | refl => exact h1
  | tail _ s ih => exact .tail ih s

theorem set_same {β : Type} {l : List β} {n : Nat} {x : β} (h : l[n]? = some x) : l.set n x = l := by
  obtain ⟨hn, rfl⟩ := List.getElem?_eq_some_iff.1 h
  exact List.set_getElem_self hn

theorem TSteps.lift {less : α → α → Bool} {a c : List α × Thread α} (h : TSteps less a c) :
    ∀ (ths : List (Thread α)) (t : Nat), ths[t]? = some a.2 →
      Steps less ⟨a.1, ths⟩ ⟨c.1, ths.set t c.2⟩ := by
  induction h with
  | refl =>
    intro ths t ht
    rw [set_same ht]
    exact .refl
  | @head s u v step _ ih =>
    intro ths t ht
    have lt : t < ths.length := (List.getElem?_eq_some_iff.1 ht).1
    have h1 : Step less ⟨s.1, ths⟩ ⟨u.1, ths.set t u.2⟩ := Step.mk (s := ⟨s.1, ths⟩) ht step
    have h2 := ih (ths.set t u.2) t (by simp [lt])
    rw [List.set_set] at h2
    exact (Steps.tail .refl h1).trans h2

/-- Writing out the list, alone. -/
theorem emits (less : α → α → Bool) (m : List α) :
    ∀ n k, k + n = m.length → TSteps less (m, .emit (m.take k)) (m, .finished m) := by
  intro n
  induction n with
  | zero =>
    intro k hk
    have : m.take k = m := List.take_of_length_le (by omega)
    rw [this]
    exact .head (.last (Nat.le_refl _)) .refl
  | succ n ih =>
    intro k hk
    have hlt : k < m.length := by omega
    have hl : (m.take k).length = k := by rw [List.length_take]; omega
    refine .head (.write (x := m[k]) (by rw [hl]; exact List.getElem?_eq_getElem hlt)) ?_
    rw [List.take_append_getElem hlt]
    exact ih (k + 1) (by omega)

/-- A swap on a list. -/
theorem swap_perm {m : List α} {i j : Nat} {x y : α} (hx : m[i]? = some x) (hy : m[j]? = some y) :
    ((m.set i y).set j x).Perm m := by
  obtain ⟨hi, rfl⟩ := List.getElem?_eq_some_iff.1 hx
  obtain ⟨hj, rfl⟩ := List.getElem?_eq_some_iff.1 hy
  exact List.set_set_perm hi hj

/-- One goroutine alone: it terminates, and what it writes is the list it leaves behind, a permutation of the
list it found. -/
theorem solo (less : α → α → Bool) : ∀ (p : Prog) (m : List α), p.InRange m.length →
    ∃ r, p.exec less m = some r ∧ r.Perm m ∧ TSteps less (m, .run p) (r, .finished r) := by
  intro p
  induction p with
  | done =>
    intro m _
    refine ⟨m, rfl, .refl _, .head .sorted ?_⟩
    exact emits less m m.length 0 (by omega)
  | less i j k ih =>
    intro m hr
    obtain ⟨hi, hj, hk⟩ := hr
    obtain ⟨r, h1, h2, h3⟩ := ih (less m[i] m[j]) m (hk _)
    refine ⟨r, ?_, h2, ?_⟩
    · simp only [Prog.exec, List.getElem?_eq_getElem hi, List.getElem?_eq_getElem hj, h1]
    · exact .head (.lessFirst (List.getElem?_eq_getElem hi))
        (.head (.lessSecond (List.getElem?_eq_getElem hj)) h3)
  | swap i j k ih =>
    intro m hr
    obtain ⟨hi, hj, hk⟩ := hr
    obtain ⟨r, h1, h2, h3⟩ := ih ((m.set i m[j]).set j m[i]) (by simpa using hk)
    have e1 := List.getElem?_eq_getElem hi
    have e2 := List.getElem?_eq_getElem hj
    refine ⟨r, ?_, h2.trans (swap_perm e1 e2), ?_⟩
    · simp only [Prog.exec, e1, e2, h1]
    · exact .head (.swapFirst e2) (.head (.swapSecond e1) (.head (.storeFirst hi)
        (.head (.storeSecond (by simpa using hj)) h3)))

/-- The classes of the elements at each position survive a run. -/
theorem exec_kinds (less : α → α → Bool) (kind : α → Nat) (κ : Nat → Nat) : ∀ (p : Prog) (m r : List α),
    p.Within κ → (∀ n x, m[n]? = some x → kind x = κ n) → p.exec less m = some r →
    (∀ n x, r[n]? = some x → kind x = κ n) := by
  intro p
  induction p with
  | done => intro m r _ hm h; cases h; exact hm
  | less i j k ih =>
    intro m r hw hm h
    simp only [Prog.exec] at h
    split at h
    · exact ih _ _ _ (hw _) hm h
    · cases h
  | swap i j k ih =>
    intro m r hw hm h
    simp only [Prog.exec] at h
    split at h
    · rename_i x y hx hy
      refine ih _ _ hw.2 ?_ h
      intro n z hz
      rw [List.getElem?_set] at hz
      split at hz
      · split at hz
        · cases hz; rename_i e _; rw [← e, ← hw.1]; exact hm _ _ hx
        · cases hz
      · rw [List.getElem?_set] at hz
        split at hz
        · split at hz
          · cases hz; rename_i e _; rw [← e, hw.1]; exact hm _ _ hy
          · cases hz
        · exact hm _ _ hz
    · cases h

/-- A run that changes the list comes to a swap of two different elements, with the list still as it was. -/
theorem first_swap (less : α → α → Bool) (κ : Nat → Nat) : ∀ (p : Prog) (m r : List α), p.InRange m.length →
    p.Within κ → p.exec less m = some r → r ≠ m →
    ∃ i j k u v, TSteps less (m, .run p) (m, .run (.swap i j k)) ∧ m[i]? = some u ∧ m[j]? = some v ∧ u ≠ v ∧
      k.InRange m.length ∧ κ i = κ j ∧ k.Within κ := by
  intro p
  induction p with
  | done => intro m r _ _ h hne; cases h; exact absurd rfl hne
  | less i j k ih =>
    intro m r hr hw h hne
    obtain ⟨hi, hj, hk⟩ := hr
    have e1 := List.getElem?_eq_getElem hi
    have e2 := List.getElem?_eq_getElem hj
    simp only [Prog.exec, e1, e2] at h
    obtain ⟨i', j', k', u, v, h1, h2⟩ := ih _ m r (hk _) (hw _) h hne
    exact ⟨i', j', k', u, v, .head (.lessFirst e1) (.head (.lessSecond e2) h1), h2⟩
  | swap i j k ih =>
    intro m r hr hw h hne
    obtain ⟨hi, hj, hk⟩ := hr
    have e1 := List.getElem?_eq_getElem hi
    have e2 := List.getElem?_eq_getElem hj
    by_cases huv : m[i] = m[j]
    · have same : (m.set i m[j]).set j m[i] = m := by
        rw [← huv, List.set_getElem_self, huv, List.set_getElem_self]
      simp only [Prog.exec, e1, e2, same] at h
      obtain ⟨i', j', k', u, v, h1, h2⟩ := ih m r hk hw.2 h hne
      refine ⟨i', j', k', u, v, TSteps.trans ?_ h1, h2⟩
      refine .head (.swapFirst e2) (.head (.swapSecond e1) (.head (.storeFirst hi)
        (.head (.storeSecond (by simpa using hj)) ?_)))
      rw [same]; exact .refl
    · exact ⟨i, j, k, _, _, .refl, e1, e2, huv, hk, hw.1, hw.2⟩

/-- Overwriting an element by a different one is not a permutation. -/
theorem set_not_perm {m : List α} {i : Nat} {u v : α} (hu : m[i]? = some u) (hne : u ≠ v) :
    ¬ (m.set i v).Perm m := by
  classical
  intro h
  obtain ⟨hi, rfl⟩ := List.getElem?_eq_some_iff.1 hu
  have := h.count_eq m[i]
  rw [List.count_set hi] at this
  have hpos : 0 < m.count m[i] := List.count_pos_iff.2 (List.getElem_mem hi)
  simp [Ne.symm hne] at this
  omega

/-- **The race.** Two goroutines sort a list that is not sorted, with any algorithm. There is a schedule in which
both write a list that is not a permutation of the list they were given; the classes of positions are kept. -/
theorem race (less : α → α → Bool) (kind : α → Nat) (κ : Nat → Nat) (p : Prog) (m r : List α)
    (hr : p.InRange m.length) (hw : p.Within κ) (hm : ∀ n x, m[n]? = some x → kind x = κ n)
    (hx : p.exec less m = some r) (hne : r ≠ m) :
    ∃ out1 out2, Steps less ⟨m, [.run p, .run p]⟩ ⟨out1, [.finished out1, .finished out2]⟩ ∧
      (¬ out1.Perm m ∧ out1.length = m.length ∧ (∀ x ∈ out1, x ∈ m) ∧
        ∀ n x, out1[n]? = some x → kind x = κ n) ∧
      (¬ out2.Perm m ∧ out2.length = m.length ∧ (∀ x ∈ out2, x ∈ m) ∧
        ∀ n x, out2[n]? = some x → kind x = κ n) := by
  obtain ⟨i, j, k, u, v, hs, hu, hv, huv, hk, hκ, hwk⟩ := first_swap less κ p m r hr hw hx hne
  obtain ⟨hi, eu⟩ := List.getElem?_eq_some_iff.1 hu
  obtain ⟨hj, ev⟩ := List.getElem?_eq_some_iff.1 hv
  have hij : i ≠ j := by rintro rfl; exact huv (Option.some.inj (hu.symm.trans hv))
  -- both come to the swap
  have s1 := hs.lift [.run p, .run p] 0 rfl
  have s2 := hs.lift [.run (.swap i j k), .run p] 1 rfl
  -- the first loads both and stores one
  have t3 : TSteps less (m, .run (.swap i j k)) (m.set i v, .swapStored u j k) :=
    .head (.swapFirst hv) (.head (.swapSecond hu) (.head (.storeFirst hi) .refl))
  have s3 := t3.lift [.run (.swap i j k), .run (.swap i j k)] 0 rfl
  -- the second loads both
  have gi : (m.set i v)[i]? = some v := by simp [hi]
  have gj : (m.set i v)[j]? = some v := by rw [List.getElem?_set_ne hij, hv]
  have t4 : TSteps less (m.set i v, .run (.swap i j k)) (m.set i v, .swapBoth v v i j k) :=
    .head (.swapFirst gj) (.head (.swapSecond gi) .refl)
  have s4 := t4.lift [.swapStored u j k, .run (.swap i j k)] 1 rfl
  -- the first stores the other
  have t5 : TSteps less (m.set i v, .swapStored u j k) ((m.set i v).set j u, .run k) :=
    .head (.storeSecond (by simpa using hj)) .refl
  have s5 := t5.lift [.swapStored u j k, .swapBoth v v i j k] 0 rfl
  -- the second stores both
  have e6 : (((m.set i v).set j u).set i v).set j v = m.set i v := by
    rw [List.set_comm _ _ hij.symm, List.set_set, List.set_set]
    exact set_same gj
  have t6 : TSteps less ((m.set i v).set j u, .swapBoth v v i j k) (m.set i v, .run k) := by
    refine .head (.storeFirst (by simpa using hi)) (.head (.storeSecond (by simpa using hj)) ?_)
    rw [e6]; exact .refl
  have s6 := t6.lift [.run k, .swapBoth v v i j k] 1 rfl
  -- both go on alone
  have kinds : ∀ n x, (m.set i v)[n]? = some x → kind x = κ n := by
    intro n x hn
    rw [List.getElem?_set] at hn
    split at hn
    · cases hn; rename_i e; rw [← e, hκ]; exact hm _ _ hv
    · exact hm _ _ hn
  obtain ⟨r2, x2, p2, t7⟩ := solo less k (m.set i v) (by simpa using hk)
  have l2 : r2.length = m.length := by rw [p2.length_eq]; simp
  have s7 := t7.lift [.run k, .run k] 1 rfl
  obtain ⟨r1, x1, p1, t8⟩ := solo less k r2 (by rw [l2]; exact hk)
  have s8 := t8.lift [.run k, .finished r2] 0 rfl
  have k2 := exec_kinds less kind κ k _ _ hwk kinds x2
  have k1 := exec_kinds less kind κ k _ _ hwk k2 x1
  have bad := set_not_perm hu huv
  have sub : ∀ x ∈ m.set i v, x ∈ m := fun x hx => by
    rcases List.mem_or_eq_of_mem_set hx with h | rfl
    · exact h
    · exact ev ▸ List.getElem_mem hj
  refine ⟨r1, r2, ?_, ⟨?_, by rw [p1.length_eq, l2], fun x hx => sub x (p2.mem_iff.1 (p1.mem_iff.1 hx)), k1⟩,
    ⟨?_, l2, fun x hx => sub x (p2.mem_iff.1 hx), k2⟩⟩
  · exact ((((((s1.trans s2).trans s3).trans s4).trans s5).trans s6).trans s7).trans s8
  · intro h; exact bad (p2.symm.trans (p1.symm.trans h))
  · intro h; exact bad (p2.symm.trans h)

/-! ### The three lists of a block -/

theorem exec_seq (less : α → α → Bool) (p q : Prog) (m : List α) :
    (p.seq q).exec less m = (p.exec less m).bind (q.exec less) := by
  induction p generalizing m with
  | done => rfl
  | less i j k ih =>
    simp only [Prog.seq, Prog.exec]
    split
    · exact ih _ _
    · rfl
  | swap i j k ih =>
    simp only [Prog.seq, Prog.exec]
    split
    · exact ih _
    · rfl

theorem inRange_seq {n : Nat} {p q : Prog} (hp : p.InRange n) (hq : q.InRange n) : (p.seq q).InRange n := by
  induction p with
  | done => exact hq
  | less i j k ih => exact ⟨hp.1, hp.2.1, fun b => ih b (hp.2.2 b)⟩
  | swap i j k ih => exact ⟨hp.1, hp.2.1, ih hp.2.2⟩

theorem within_seq {κ : Nat → Nat} {p q : Prog} (hp : p.Within κ) (hq : q.Within κ) : (p.seq q).Within κ := by
  induction p with
  | done => exact hq
  | less i j k ih => exact fun b => ih b (hp b)
  | swap i j k ih => exact ⟨hp.1, ih hp.2⟩

theorem inRange_shift {n d t : Nat} {p : Prog} (hp : p.InRange n) (h : d + n ≤ t) : (p.shift d).InRange t := by
  induction p with
  | done => trivial
  | less i j k ih =>
    obtain ⟨h1, h2, h3⟩ := hp
    exact ⟨by omega, by omega, fun b => ih b (h3 b)⟩
  | swap i j k ih =>
    obtain ⟨h1, h2, h3⟩ := hp
    exact ⟨by omega, by omega, ih h3⟩

theorem within_shift {κ : Nat → Nat} {n d c : Nat} {p : Prog} (hp : p.InRange n) (h : ∀ i < n, κ (d + i) = c) :
    (p.shift d).Within κ := by
  induction p with
  | done => trivial
  | less i j k ih => exact fun b => ih b (hp.2.2 b)
  | swap i j k ih =>
    obtain ⟨h1, h2, h3⟩ := hp
    exact ⟨by rw [h i h1, h j h2], ih h3⟩

theorem shift_zero (p : Prog) : p.shift 0 = p := by
  induction p with
  | done => rfl
  | less i j k ih => simp only [Prog.shift, Nat.zero_add, ih]
  | swap i j k ih => simp only [Prog.shift, Nat.zero_add, ih]

/-- A program on a list that lies between two others in memory. -/
theorem exec_shift {β : Type} (less : α → α → Bool) (less' : β → β → Bool) (f : α → β)
    (hf : ∀ x y, less' (f x) (f y) = less x y) (a c : List β) : ∀ (p : Prog) (l : List α), p.InRange l.length →
    (p.shift a.length).exec less' (a ++ (l.map f ++ c)) = (p.exec less l).map fun r => a ++ (r.map f ++ c) := by
  have get : ∀ (l : List α) (i : Nat) (h : i < l.length), (a ++ (l.map f ++ c))[a.length + i]? = some (f l[i]) := by
    intro l i h
    rw [List.getElem?_append_right (by omega), Nat.add_sub_cancel_left,
      List.getElem?_append_left (by simpa using h)]
    simp [h]
  have put : ∀ (l : List α) (i : Nat) (x : α), i < l.length →
      (a ++ (l.map f ++ c)).set (a.length + i) (f x) = a ++ ((l.set i x).map f ++ c) := by
    intro l i x h
    rw [List.set_append_right _ _ (by omega), Nat.add_sub_cancel_left,
      List.set_append_left _ _ (by simpa using h), List.map_set]
  intro p
  induction p with
  | done => intro l _; rfl
  | less i j k ih =>
    intro l hr
    obtain ⟨hi, hj, hk⟩ := hr
    simp only [Prog.shift, Prog.exec, get l i hi, get l j hj, List.getElem?_eq_getElem hi,
      List.getElem?_eq_getElem hj, hf]
    exact ih _ l (hk _)
  | swap i j k ih =>
    intro l hr
    obtain ⟨hi, hj, hk⟩ := hr
    simp only [Prog.shift, Prog.exec, get l i hi, get l j hj, List.getElem?_eq_getElem hi,
      List.getElem?_eq_getElem hj]
    rw [put l i _ hi, put _ j _ (by simpa using hj)]
    exact ih _ (by simpa using hk)

theorem quiet_seq {less : α → α → Bool} {m : List α} {p q : Prog} (hp : p.Quiet less m) (hq : q.Quiet less m) :
    (p.seq q).Quiet less m := by
  induction p with
  | done => exact hq
  | less i j k ih =>
    obtain ⟨x, y, hx, hy, h⟩ := hp
    exact ⟨x, y, hx, hy, ih _ h⟩
  | swap i j k => exact hp.elim

theorem quiet_shift {β : Type} {less : α → α → Bool} {less' : β → β → Bool} {f : α → β}
    (hf : ∀ x y, less' (f x) (f y) = less x y) (a c : List β) {l : List α} {p : Prog} (hp : p.Quiet less l) :
    (p.shift a.length).Quiet less' (a ++ (l.map f ++ c)) := by
  have get : ∀ (i : Nat) (x : α), l[i]? = some x → (a ++ (l.map f ++ c))[a.length + i]? = some (f x) := by
    intro i x h
    obtain ⟨hi, rfl⟩ := List.getElem?_eq_some_iff.1 h
    rw [List.getElem?_append_right (by omega), Nat.add_sub_cancel_left,
      List.getElem?_append_left (by simpa using hi)]
    simp [hi]
  induction p with
  | done => trivial
  | less i j k ih =>
    obtain ⟨x, y, hx, hy, h⟩ := hp
    exact ⟨f x, f y, get i x hx, get j y hy, by rw [hf]; exact ih _ h⟩
  | swap i j k => exact hp.elim

/-! ### A quiet program -/

/-- Where a goroutine that swaps nothing can be. -/
def Calm (less : α → α → Bool) (m : List α) : Thread α → Prop
  | .run p => p.Quiet less m
  | .lessLoaded x j k => ∃ y, m[j]? = some y ∧ (k (less x y)).Quiet less m
  | .emit out => ∃ n, out = m.take n
  | .finished out => out = m
  | _ => False

theorem calm_step {less : α → α → Bool} {m m' : List α} {th th' : Thread α} (h : Calm less m th)
    (step : TStep less (m, th) (m', th')) : m' = m ∧ Calm less m th' := by
  cases step with
  | lessFirst hx =>
    obtain ⟨x, y, h1, h2, h3⟩ := h
    rw [h1] at hx; cases hx
    exact ⟨rfl, y, h2, h3⟩
  | lessSecond hy =>
    obtain ⟨y, h1, h2⟩ := h
    rw [h1] at hy; cases hy
    exact ⟨rfl, h2⟩
  | swapFirst _ => exact h.elim
  | swapSecond _ => exact h.elim
  | storeFirst _ => exact h.elim
  | storeSecond _ => exact h.elim
  | sorted => exact ⟨rfl, 0, by simp⟩
  | @write _ out x hx =>
    obtain ⟨n, rfl⟩ := h
    obtain ⟨hlt, rfl⟩ := List.getElem?_eq_some_iff.1 hx
    refine ⟨rfl, (m.take n).length + 1, ?_⟩
    have e : m.take (m.take n).length = m.take n := by
      rw [List.length_take, List.take_eq_take_iff]; omega
    rw [← List.take_append_getElem hlt, e]
  | @last _ out hl =>
    obtain ⟨n, rfl⟩ := h
    refine ⟨rfl, ?_⟩
    show m.take n = m
    rw [List.length_take] at hl
    exact List.take_of_length_le (by omega)

theorem calm_steps {less : α → α → Bool} {s u : Sys α} (h : Steps less s u)
    (hs : ∀ th ∈ s.threads, Calm less s.mem th) : u.mem = s.mem ∧ (∀ th ∈ u.threads, Calm less s.mem th) ∧
      u.threads.length = s.threads.length := by
  induction h with
  | refl => exact ⟨rfl, hs, rfl⟩
  | tail _ step ih =>
    obtain ⟨h1, h2, h3⟩ := ih
    cases step with
    | mk ht st =>
      rw [h1] at st
      obtain ⟨e, c⟩ := calm_step (h2 _ (List.mem_of_getElem? ht)) st
      refine ⟨e, ?_, by simpa using h3⟩
      intro th hth
      rcases List.mem_or_eq_of_mem_set hth with h | rfl
      · exact h2 _ h
      · exact c

/-- A calm goroutine that has not finished can make a step. -/
theorem calm_progress {less : α → α → Bool} {m : List α} {th : Thread α} (h : Calm less m th)
    (hf : ∀ out, th ≠ .finished out) : ∃ th', TStep less (m, th) (m, th') := by
  cases th with
  | run p =>
    cases p with
    | done => exact ⟨_, .sorted⟩
    | less i j k => obtain ⟨x, y, h1, -, -⟩ := h; exact ⟨_, .lessFirst h1⟩
    | swap i j k => exact h.elim
  | lessLoaded x j k => obtain ⟨y, h1, -⟩ := h; exact ⟨_, .lessSecond h1⟩
  | emit out =>
    by_cases hl : m.length ≤ out.length
    · exact ⟨_, .last hl⟩
    · exact ⟨_, .write (List.getElem?_eq_getElem (Nat.lt_of_not_le hl))⟩
  | finished out => exact absurd rfl (hf out)
  | _ => exact h.elim

/-! ### Insertion sort -/

theorem insert_inRange {n : Nat} {k : Prog} (hk : k.InRange n) : ∀ j, j < n → (insert k j).InRange n := by
  intro j
  induction j with
  | zero => intro _; exact hk
  | succ j ih =>
    intro h
    refine ⟨h, by omega, fun b => ?_⟩
    cases b
    · exact hk
    · exact ⟨h, by omega, ih (by omega)⟩

theorem insertionFrom_inRange {t : Nat} : ∀ n i, i + n ≤ t → (insertionFrom n i).InRange t := by
  intro n
  induction n with
  | zero => intro i _; trivial
  | succ n ih => intro i h; exact insert_inRange (ih _ (by omega)) i (by omega)

theorem insertionSort_inRange (n : Nat) : (insertionSort n).InRange n := by
  by_cases h : n = 0
  · subst h; trivial
  · exact insertionFrom_inRange _ _ (by omega)

theorem isSorted_adjacent {less : α → α → Bool} : ∀ {m : List α}, isSorted less m = true → ∀ j (h : j + 1 < m.length),
    less m[j + 1] m[j] = false := by
  intro m
  induction m with
  | nil => intro _ j h; simp at h
  | cons a m ih =>
    intro hs j h
    cases m with
    | nil => simp at h
    | cons b m =>
      simp only [isSorted, Bool.and_eq_true, Bool.not_eq_true'] at hs
      cases j with
      | zero => exact hs.1
      | succ j => exact ih hs.2 j (by simpa using h)

theorem insertionFrom_quiet {less : α → α → Bool} {m : List α} (hs : isSorted less m = true) :
    ∀ n i, i + n ≤ m.length → (insertionFrom n i).Quiet less m := by
  intro n
  induction n with
  | zero => intro i _; trivial
  | succ n ih =>
    intro i h
    have hk := ih (i + 1) (by omega)
    cases i with
    | zero => exact hk
    | succ j =>
      refine ⟨m[j + 1], m[j], List.getElem?_eq_getElem (by omega), List.getElem?_eq_getElem (by omega), ?_⟩
      rw [isSorted_adjacent hs j (by omega)]
      exact hk

theorem insertionSort_quiet {less : α → α → Bool} {m : List α} (hs : isSorted less m = true) :
    (insertionSort m.length).Quiet less m := by
  by_cases h : m.length = 0
  · rw [h]; trivial
  · exact insertionFrom_quiet hs _ _ (by omega)

/-- The elements up to index `i` are in order, except perhaps the one at `j` relative to those before it. -/
def OrderedBut (less : α → α → Bool) (m : List α) (i j : Nat) : Prop :=
  ∀ a b x y, a < b → b ≤ i → b ≠ j → m[a]? = some x → m[b]? = some y → less y x = false

theorem insert_exec {less : α → α → Bool} (asymm : ∀ x y, less x y = true → less y x = false)
    (trans : ∀ x y z, less y x = false → less z y = false → less z x = false) (k : Prog) (i : Nat) :
    ∀ j (m : List α), j ≤ i → i < m.length → OrderedBut less m i j →
      ∃ m', (insert k j).exec less m = k.exec less m' ∧ m'.Perm m ∧ OrderedBut less m' i (i + 1) := by
  intro j
  induction j with
  | zero =>
    intro m _ _ h
    refine ⟨m, rfl, .refl _, ?_⟩
    intro a b x y hab hb _ hx hy
    exact h a b x y hab hb (by omega) hx hy
  | succ j ih =>
    intro m hj hi h
    have h1 : j + 1 < m.length := by omega
    have h0 : j < m.length := by omega
    have e1 := List.getElem?_eq_getElem h1
    have e0 := List.getElem?_eq_getElem h0
    by_cases hl : less m[j + 1] m[j] = true
    · have hm : OrderedBut less ((m.set (j + 1) m[j]).set j m[j + 1]) i j := by
        have get : ∀ n, ((m.set (j + 1) m[j]).set j m[j + 1])[n]? =
            if n = j then some m[j + 1] else if n = j + 1 then some m[j] else m[n]? := by
          intro n
          by_cases c1 : n = j
          · subst c1; rw [if_pos rfl, List.getElem?_set_self (by simpa using h0)]
          · rw [if_neg c1, List.getElem?_set_ne (Ne.symm c1)]
            by_cases c2 : n = j + 1
            · subst c2; rw [if_pos rfl, List.getElem?_set_self h1]
            · rw [if_neg c2, List.getElem?_set_ne (Ne.symm c2)]
        intro a b x y hab hb hbj hx hy
        rw [get] at hx hy
        rw [if_neg hbj] at hy
        by_cases c1 : b = j + 1
        · rw [if_pos c1] at hy; cases hy
          by_cases c2 : a = j
          · rw [if_pos c2] at hx; cases hx; exact asymm _ _ hl
          · rw [if_neg c2, if_neg (by omega)] at hx
            exact h a j x _ (by omega) (by omega) (by omega) hx e0
        · rw [if_neg c1] at hy
          by_cases c2 : a = j
          · rw [if_pos c2] at hx; cases hx
            exact h (j + 1) b _ y (by omega) hb (by omega) e1 hy
          · rw [if_neg c2] at hx
            by_cases c3 : a = j + 1
            · rw [if_pos c3] at hx; cases hx
              exact h j b _ y (by omega) hb c1 e0 hy
            · rw [if_neg c3] at hx
              exact h a b x y hab hb c1 hx hy
      obtain ⟨m', h2, h3, h4⟩ := ih _ (by omega) (by simpa using hi) hm
      refine ⟨m', ?_, h3.trans (swap_perm e1 e0), h4⟩
      simp only [insert, Prog.exec, e1, e0, hl, if_true, h2]
    · have hf : less m[j + 1] m[j] = false := by simpa using hl
      refine ⟨m, ?_, .refl _, ?_⟩
      · simp only [insert, Prog.exec, e1, e0, hf, Bool.false_eq_true, if_false]
      · intro a b x y hab hb _ hx hy
        by_cases c1 : b = j + 1
        · subst c1
          rw [e1] at hy; cases hy
          by_cases c2 : a = j
          · subst c2; rw [e0] at hx; cases hx; exact hf
          · exact trans _ _ _ (h a j x _ (by omega) (by omega) (by omega) hx e0) hf
        · exact h a b x y hab hb c1 hx hy

theorem isSorted_of_ordered {less : α → α → Bool} : ∀ (m : List α),
    (∀ j x y, m[j]? = some x → m[j + 1]? = some y → less y x = false) → isSorted less m = true := by
  intro m
  induction m with
  | nil => intro _; rfl
  | cons a m ih =>
    intro h
    cases m with
    | nil => rfl
    | cons b m =>
      simp only [isSorted, Bool.and_eq_true, Bool.not_eq_true']
      exact ⟨h 0 a b rfl rfl, ih fun j x y hx hy => h (j + 1) x y hx hy⟩

theorem insertionFrom_exec {less : α → α → Bool} (asymm : ∀ x y, less x y = true → less y x = false)
    (trans : ∀ x y z, less y x = false → less z y = false → less z x = false) :
    ∀ n i (m : List α), i + n = m.length → (∀ a b x y, a < b → b < i → m[a]? = some x → m[b]? = some y →
      less y x = false) → ∃ r, (insertionFrom n i).exec less m = some r ∧ r.Perm m ∧ isSorted less r = true := by
  intro n
  induction n with
  | zero =>
    intro i m hi h
    refine ⟨m, rfl, .refl _, isSorted_of_ordered m fun j x y hx hy => ?_⟩
    have := (List.getElem?_eq_some_iff.1 hy).1
    exact h j (j + 1) x y (by omega) (by omega) hx hy
  | succ n ih =>
    intro i m hi h
    obtain ⟨m', h1, h2, h3⟩ := insert_exec asymm trans (insertionFrom n (i + 1)) i i m (Nat.le_refl _) (by omega)
      (fun a b x y hab hb hne hx hy => h a b x y hab (by omega) hx hy)
    obtain ⟨r, g1, g2, g3⟩ := ih (i + 1) m' (by rw [h2.length_eq]; omega)
      (fun a b x y hab hb hx hy => h3 a b x y hab (by omega) (by omega) hx hy)
    exact ⟨r, by rw [insertionFrom, h1, g1], g2.trans h2, g3⟩

/-- Insertion sort sorts. -/
theorem insertionSort_exec {less : α → α → Bool} (asymm : ∀ x y, less x y = true → less y x = false)
    (trans : ∀ x y z, less y x = false → less z y = false → less z x = false) (m : List α) :
    ∃ r, (insertionSort m.length).exec less m = some r ∧ r.Perm m ∧ isSorted less r = true := by
  by_cases h : m.length = 0
  · have : m = [] := List.length_eq_zero_iff.1 h
    subst this
    exact ⟨[], rfl, .refl _, rfl⟩
  · exact insertionFrom_exec asymm trans _ _ m (by omega) (fun a b x y hab hb => by omega)

end Gringo.Shared
