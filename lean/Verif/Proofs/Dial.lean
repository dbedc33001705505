import Verif.Spec.Dial
import Verif.Proofs.PoolRun
/-
For C140: every attempt uses up a waiting address.
-/
namespace Gringo.Dial
open Gringo.Spec Gringo.P2P Gringo.PoolRun

/-- 1 if the entry is there and waiting. -/
def op (o : Option PeerInfo) : Nat := o.toList.countP fun i => decide (Waiting i)

theorem op_none : op none = 0 := rfl

theorem op_some (i : PeerInfo) : op (some i) = if Waiting i then 1 else 0 := by
  unfold op
  by_cases h : Waiting i <;> simp [h]

theorem op_le (o : Option PeerInfo) : op o ≤ 1 := by
  cases o with
  | none => exact Nat.zero_le _
  | some i => rw [op_some]; split <;> omega

theorem waiting_cons (e : String × PeerInfo) (t : Table) : waiting (e :: t) = waiting t + op (some e.2) := by
  unfold waiting
  rw [List.countP_cons, op_some]
  by_cases h : Waiting e.2 <;> simp [h]

theorem update_absent (t : Table) (a : String) (f : PeerInfo → PeerInfo) (h : a ∉ t.map (·.1)) : t.update a f = t := by
  unfold Table.update
  conv_rhs => rw [← List.map_id t]
  refine List.map_congr_left fun e he => ?_
  rw [if_neg fun e' => h (List.mem_map.2 ⟨e, he, e'⟩)]
  rfl

/-- What a change of one entry does to the number of waiting addresses. -/
theorem waiting_update (t : Table) (h : UniqueKeys t) (a : String) (f : PeerInfo → PeerInfo) :
    waiting (t.update a f) + op (t.find a) = waiting t + op ((t.find a).map f) := by
  induction t with
  | nil => rfl
  | cons e t ih =>
    obtain ⟨k, v⟩ := e
    unfold UniqueKeys at h
    rw [List.map_cons, List.nodup_cons] at h
    by_cases hk : k = a
    · subst hk
      have e1 : Table.update ((k, v) :: t) k f = (k, f v) :: t := by
        have := update_absent t k f h.1
        unfold Table.update at this ⊢
        rw [List.map_cons, this, if_pos rfl]
      have e2 : Table.find ((k, v) :: t) k = some v := by simp [Table.find, List.lookup]
      rw [e1, e2, waiting_cons, waiting_cons, Option.map_some]
      simp only
      omega
    · have e1 : Table.update ((k, v) :: t) a f = (k, v) :: Table.update t a f := by
        unfold Table.update
        rw [List.map_cons, if_neg hk]
      have hk' : (a == k) = false := by simpa using fun e : a = k => hk e.symm
      have e2 : Table.find ((k, v) :: t) a = Table.find t a := by simp [Table.find, List.lookup, hk']
      rw [e1, e2, waiting_cons, waiting_cons]
      have := ih h.2
      omega

/-- A waiting address is one of those that are counted. -/
theorem waiting_two (t : Table) (h : UniqueKeys t) (a b : String) (hab : a ≠ b) :
    op (t.find a) + op (t.find b) ≤ waiting t := by
  induction t with
  | nil => exact Nat.le_refl _
  | cons e t ih =>
    obtain ⟨k, v⟩ := e
    unfold UniqueKeys at h
    rw [List.map_cons, List.nodup_cons] at h
    have hi := ih h.2
    rw [waiting_cons]
    have ne : ∀ x : String, x ≠ k → Table.find ((k, v) :: t) x = Table.find t x := fun x hx => by
      have : (x == k) = false := by simpa using hx
      simp [Table.find, List.lookup, this]
    have eq : Table.find ((k, v) :: t) k = some v := by simp [Table.find, List.lookup]
    have hn : Table.find t k = none := by
      cases hf : Table.find t k with
      | none => rfl
      | some i => exact absurd (List.mem_map.2 ⟨_, Props.find_some_mem hf, rfl⟩) h.1
    by_cases ha : a = k
    · subst ha
      rw [eq, ne b (Ne.symm hab)]
      rw [hn, op_none] at hi
      simp only at *
      omega
    · rw [ne a ha]
      by_cases hb : b = k
      · subst hb
        rw [eq]
        rw [hn, op_none] at hi
        simp only at *
        omega
      · rw [ne b hb]; omega

/-- 1 if the loop is trying a waiting address. -/
def busy (s : Pool) : Nat :=
  match s.loop with
  | .dialing a => op (s.table.find a)
  | .greeting a _ => op (s.table.find a)
  | _ => 0

/-- The loop is about to dial an address that failed. -/
def Bad (s : Pool) : Prop := ∃ a i, s.loop = .connecting a ∧ s.table.find a = some i ∧ i.status = .failedConn

theorem busy_le {s s' : Pool} (hl : s'.loop = s.loop) (h : ∀ a, op (s.table.find a) ≤ op (s'.table.find a)) :
    busy s ≤ busy s' := by
  unfold busy
  rw [hl]
  split <;> first | exact h _ | exact Nat.le_refl _

theorem op_map_le {f : PeerInfo → PeerInfo} (hf : ∀ i, Waiting (f i)) (o : Option PeerInfo) : op o ≤ op (o.map f) := by
  cases o with
  | none => exact Nat.le_refl _
  | some i => rw [Option.map_some, op_some (f i), if_pos (hf i)]; exact op_le _

theorem op_map_zero {f : PeerInfo → PeerInfo} (hf : ∀ i, ¬ Waiting (f i)) (o : Option PeerInfo) : op (o.map f) = 0 := by
  cases o with
  | none => rfl
  | some i => rw [Option.map_some, op_some, if_neg (hf i)]

theorem op_map_eq {f : PeerInfo → PeerInfo} (hf : ∀ i, (f i).status = i.status) (o : Option PeerInfo) :
    op (o.map f) = op o := by
  cases o with
  | none => rfl
  | some i =>
    have e : Waiting (f i) ↔ Waiting i := by unfold Waiting; rw [hf i]
    rw [Option.map_some, op_some, op_some]
    simp only [e]

/-- A change that makes an entry wait does not make the loop less busy. -/
theorem busy_waits {s s' : Pool} (hl : s'.loop = s.loop) {a : String} {f : PeerInfo → PeerInfo}
    (ht : s'.table = s.table.update a f) (hf : ∀ i, Waiting (f i)) : busy s ≤ busy s' := by
  refine busy_le hl fun b => ?_
  rw [ht, Props.find_update]
  split
  · exact op_map_le hf _
  · exact Nat.le_refl _

/-- A change that makes an entry stop waiting. -/
theorem busy_ban {s s' : Pool} (hu : UniqueKeys s.table) (hl : s'.loop = s.loop) {a : String} {f : PeerInfo → PeerInfo}
    (ht : s'.table = s.table.update a f) (hf : ∀ i, ¬ Waiting (f i)) :
    waiting s'.table + busy s ≤ waiting s.table + busy s' := by
  have hw := waiting_update s.table hu a f
  rw [op_map_zero hf] at hw
  rw [ht]
  have key : ∀ b, op (s.table.find b) ≤ op ((s.table.update a f).find b) + op (s.table.find a) := fun b => by
    rw [Props.find_update]
    split
    · rename_i e; subst e; omega
    · omega
  have hb : busy s ≤ busy s' + op (s.table.find a) := by
    unfold busy
    rw [hl, ht]
    split <;> first | exact key _ | exact Nat.zero_le _
  omega

/-- The loop does not choose an address that failed while there is one that was never tried. -/
theorem choice_waits {t o1 o2 : Table} (h1 : o1.Perm t) {b : String} {i : PeerInfo} (hb : t.find b = some i)
    (hi : Waiting i) : ∃ j, (notConnected o1 o2, j) ∈ t ∧ Waiting j := by
  have hm : (b, i) ∈ o1 := h1.mem_iff.2 (Props.find_some_mem hb)
  unfold notConnected
  cases hf : o1.find? (fun e => e.2.status = .new ∨ e.2.status = .disconnected) with
  | none =>
    have := List.find?_eq_none.1 hf _ hm
    simp only [decide_eq_true_eq] at this
    exact absurd hi this
  | some e =>
    have h2 := List.find?_some hf
    simp only [decide_eq_true_eq] at h2
    exact ⟨e.2, h1.mem_iff.1 (List.mem_of_find?_eq_some hf), h2⟩

theorem still {s s' : Pool} (hl : s'.loop = s.loop)
    (h : waiting s'.table + busy s ≤ waiting s.table + (waiting s'.table - waiting s.table) + busy s') :
    (dialled s s').length + waiting s'.table + busy s ≤
      waiting s.table + (waiting s'.table - waiting s.table) + undone s s' + busy s' := by
  have hd : dialled s s' = [] := by unfold dialled; rw [hl]; cases s.loop <;> rfl
  rw [hd, List.length_nil]
  omega

/-- In every step: what is dialled was waiting, unless it is an address that failed. -/
theorem step_bound {s s' : Pool} (hs : Step s s') (hu : UniqueKeys s.table) :
    ((dialled s s').length + waiting s'.table + busy s ≤
      waiting s.table + (waiting s'.table - waiting s.table) + undone s s' + busy s') ∨
    (Bad s ∧ (dialled s s').length + waiting s'.table + busy s ≤
      waiting s.table + (waiting s'.table - waiting s.table) + undone s s' + busy s' + 1 ∧ ¬ Bad s') := by
  cases hs with
  | dial addr i h hne hc ht hl hst =>
    have hd : dialled s { s with loop := .dialing addr } = [addr] := by unfold dialled; rw [h]
    have hb : busy s = 0 := by unfold busy; rw [h]
    by_cases hf : i.status = .failedConn
    · refine .inr ⟨⟨addr, i, h, ht, hf⟩, ?_, ?_⟩
      · rw [hd, hb]; simp only [List.length_singleton]; omega
      · rintro ⟨a, j, e, -⟩; cases e
    · left
      have hw : Waiting i := by unfold Waiting; cases e : i.status <;> simp_all
      have hb' : busy { s with loop := .dialing addr } = 1 := by
        show op (s.table.find addr) = 1
        rw [ht, op_some, if_pos hw]
      rw [hd, hb, hb']; simp only [List.length_singleton]; omega
  | noAnswer addr h =>
    left
    have hw := waiting_update s.table hu addr (setStatus .failedConn)
    rw [op_map_zero (by intro i; unfold Waiting setStatus; simp)] at hw
    have hb : busy s = op (s.table.find addr) := by unfold busy; rw [h]
    have hd : ∀ s', dialled s s' = [] := fun s' => by unfold dialled; rw [h]
    rw [hb, hd]; simp only [List.length_nil]; omega
  | noShake addr c h hn =>
    left
    have hw := waiting_update s.table hu addr (setStatus .failedConn)
    rw [op_map_zero (by intro i; unfold Waiting setStatus; simp)] at hw
    have hb : busy s = op (s.table.find addr) := by unfold busy; rw [h]
    have hd : ∀ s', dialled s s' = [] := fun s' => by unfold dialled; rw [h]
    rw [hb, hd]; simp only [List.length_nil]; omega
  | register addr c told now n h hv hn =>
    left
    have hw := waiting_update s.table hu addr (registered c now told)
    rw [op_map_zero (by intro i; unfold Waiting registered; simp)] at hw
    have hb : busy s = op (s.table.find addr) := by unfold busy; rw [h]
    have hd : ∀ s', dialled s s' = [] := fun s' => by unfold dialled; rw [h]
    rw [hb, hd]; simp only [List.length_nil]; omega
  | opens addr h =>
    left
    have hb : busy s = op (s.table.find addr) := by unfold busy; rw [h]
    have hd : ∀ s', dialled s s' = [] := fun s' => by unfold dialled; rw [h]
    rw [hb, hd]; simp only [List.length_nil, busy]; omega
  | otherVersion addr c told h hv hn =>
    left
    have hb : busy s = op (s.table.find addr) := by unfold busy; rw [h]
    have hd : ∀ s', dialled s s' = [] := fun s' => by unfold dialled; rw [h]
    have hx : undone s { s with loop := .failed } = op (s.table.find addr) := by unfold undone; rw [h]; rfl
    rw [hb, hd, hx]; simp only [List.length_nil]; omega
  | record l r x td height hx h hl =>
    left
    have hw := waiting_update s.table hu x.addr fun i => { i with totalDifficulty := td, height := height }
    rw [op_map_eq (by intro i; rfl)] at hw
    have := busy_le (s := s) (s' := { s with
        links := l ++ { x with waiting := false } :: r
        table := s.table.update x.addr fun i => { i with totalDifficulty := td, height := height } }) rfl (fun a => by
      simp only [Props.find_update]
      split
      · rw [op_map_eq (by intro i; rfl)]
      · exact Nat.le_refl _)
    refine still rfl ?_
    simp only at *
    omega
  | mark l r x hx h hw hl =>
    left
    have := busy_waits (s := s) (s' := { s with
        links := l ++ { x with phase := .marked } :: r
        table := s.table.update x.addr (setStatus .disconnected) }) rfl rfl (fun i => .inr rfl)
    exact still rfl (by simp only at *; omega)
  | closeDown l r addr i x hx hl ht hp hx' hu' =>
    left
    have := busy_waits (s := s) (s' := { s with
        closers := l ++ (addr, .over) :: r
        table := s.table.update addr (setStatus .disconnected) }) rfl rfl (fun i => .inr rfl)
    exact still rfl (by simp only at *; omega)
  | closed l r addr x hx hx' hw ho =>
    left
    have := busy_waits (s := s) (s' := { s with
        closers := l ++ (addr, .over) :: r
        table := s.table.update addr (setStatus .disconnected) }) rfl rfl (fun i => .inr rfl)
    exact still rfl (by simp only at *; omega)
  | banSelf addr l r x hx h hw hb =>
    left
    have := busy_ban (s := s) (s' := { s with
        table := s.table.update addr (setStatus .banned)
        links := l ++ { x with phase := .stuck } :: r }) hu rfl rfl
        (by intro i; unfold Waiting setStatus; simp)
    exact still rfl (by simp only at *; omega)
  | banOther addr i h =>
    left
    have := busy_ban (s := s) (s' := { s with
        table := s.table.update addr (setStatus .banned), banning := s.banning + 1 }) hu rfl rfl
        (by intro i; unfold Waiting setStatus; simp)
    exact still rfl (by simp only at *; omega)
  | add addr resolve hr =>
    left
    have := busy_le (s := s) (s' := { s with table := P2P.add resolve s.table addr }) rfl (fun a => by
      rcases find_cases (.add s addr resolve hr) a with e | ⟨e, -⟩ | ⟨i, e, -⟩
      · rw [e]
      · rw [e]; exact Nat.zero_le _
      · obtain ⟨rest, e', -⟩ := Props.add_prefix resolve s.table addr
        simp only [e']
        have : Table.find (s.table ++ rest) a = s.table.find a := by
          unfold Table.find at e ⊢
          rw [List.lookup_append, e]; rfl
        rw [this])
    exact still rfl (by simp only at *; omega)
  | _ =>
    left
    simp_all [dialled, undone, busy]
    try omega

theorem Run.reachable {P : Pool → Prop} {s s' : Pool} {ds : List String} {c u : Nat} (h : Run P s ds c u s') :
    Reachable s s' := by
  induction h with
  | here _ => exact .here
  | next _ hp hs _ ih => exact .next ih hp hs

theorem Run.holds {P : Pool → Prop} {s s' : Pool} {ds : List String} {c u : Nat} (h : Run P s ds c u s') : P s' := by
  cases h with
  | here h => exact h
  | next _ _ _ h => exact h

/-- Where an address that failed is about to be dialled, it was so before. -/
theorem bad_from {s s' : Pool} (hs : Step s s') (hu : UniqueKeys s.table) {b : String} (hb : New b s) (h : Bad s') :
    Bad s := by
  obtain ⟨a, i, hl, hf, hi⟩ := h
  have hl' : s.loop = .connecting a := by
    cases hs with
    | choose o1 o2 h0 h1 h2 =>
      exfalso
      obtain ⟨j, hj, hn⟩ := hb
      obtain ⟨k, hk, hw⟩ := choice_waits (o2 := o2) h1 hj (.inl hn)
      simp only [Loop.connecting.injEq] at hl
      rw [hl] at hk
      rw [Props.mem_find hu hk] at hf
      cases hf
      rcases hw with e | e <;> rw [e] at hi <;> cases hi
    | _ => first | exact hl | cases hl
  rcases find_cases hs a with e | ⟨-, -, e, -⟩ | ⟨j, hj, ⟨h | h, -⟩ | ⟨c, now, told, h, -⟩ | ⟨td, ht, e⟩ |
    ⟨l, r, x, y, -, -, -, -, -, -, e⟩ | e | ⟨-, -, e⟩⟩
  · exact ⟨a, i, hl', e ▸ hf, hi⟩
  · rw [e] at hf; cases hf; cases hi
  · rw [hl'] at h; cases h
  · obtain ⟨c, h⟩ := h; rw [hl'] at h; cases h
  · rw [hl'] at h; cases h
  · rw [e] at hf; cases hf; exact ⟨a, j, hl', hj, hi⟩
  · rw [e] at hf; cases hf; cases hi
  · rw [e] at hf; cases hf; cases hi
  · rw [e] at hf; cases hf; cases hi

/-- In a run: what was dialled. -/
theorem run_bound {s s' : Pool} {b : String} {ds : List String} {c u : Nat} (h0 : Reachable Pool.new s)
    (h : Run (fun s => New b s ∧ ¬ Trying b s) s ds c u s') :
    (ds.length + waiting s'.table ≤ waiting s.table + c + u + busy s' ∧ (Bad s' → Bad s)) ∨
    (Bad s ∧ ¬ Bad s' ∧ ds.length + waiting s'.table ≤ waiting s.table + c + u + busy s' + 1) := by
  induction h with
  | here _ => exact .inl ⟨by simp, id⟩
  | @next ds c u s1 s2 h hp hs hP ih =>
    have hu := (inv_reachable (h0.trans h.reachable)).entries.unique
    have hb := h.holds.1
    rw [List.length_append]
    rcases ih with ⟨i1, i2⟩ | ⟨i1, i2, i3⟩
    · rcases step_bound hs hu with k | ⟨k1, k2, k3⟩
      · exact .inl ⟨by omega, fun hx => i2 (bad_from hs hu hb hx)⟩
      · exact .inr ⟨i2 k1, k3, by omega⟩
    · rcases step_bound hs hu with k | ⟨k1, k2, k3⟩
      · exact .inr ⟨i1, fun hx => i2 (bad_from hs hu hb hx), by omega⟩
      · exact absurd k1 i2

/-- An address that waits and is not being tried is not counted as being tried. -/
theorem busy_lt {s : Pool} (hu : UniqueKeys s.table) {b : String} (hb : New b s) (ht : ¬ Trying b s) :
    busy s < waiting s.table := by
  obtain ⟨i, hi, hn⟩ := hb
  have hob : op (s.table.find b) = 1 := by rw [hi, op_some, if_pos (.inl hn)]
  have one : ∀ a, a ≠ b → op (s.table.find a) < waiting s.table := fun a hab => by
    have := waiting_two s.table hu a b hab
    omega
  have pos : 0 < waiting s.table :=
    List.countP_pos_iff.2 ⟨_, Props.find_some_mem hi, decide_eq_true (.inl hn : Waiting i)⟩
  unfold busy
  split
  · rename_i a h; exact one a fun e => ht (.inl (e ▸ h))
  · rename_i a c h; exact one a fun e => ht (.inr ⟨c, e ▸ h⟩)
  · exact pos

end Gringo.Dial
