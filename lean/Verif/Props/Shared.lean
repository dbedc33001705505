import Verif.Proofs.Shared
import Verif.Props.Blocks
import Verif.Props.Sync
/-
C101: one block serialised by several goroutines at the same time.
-/
namespace Gringo.Props
open Gringo.Spec Gringo.Shared
variable {E : Env}

/-- The program sorts the list `l` when nobody else touches it, and stays within its bounds. -/
def Sorts {α : Type} (less : α → α → Bool) (p : Prog) (l : List α) : Prop :=
  p.InRange l.length ∧ ∃ r, p.exec less l = some r ∧ isSorted less r = true

/-- A block written in the order in which its elements stand is read back as it is. -/
theorem wire_reads (E : Env) (P : Point → Prop) (Q : E.Prf → Prop) (hE : PointCodec E P)
    (hQ : PrfCodec E Q) (hmem : 336 ≤ E.maxAlloc)
    (hmem2 : 1000000 * (104 + E.outputSize) ≤ E.maxAlloc) (b b' : Block E)
    (wf : WellFormedHeader b.header) (hi : InputsOK b'.inputs) (ho : OutputsOK P Q b'.outputs)
    (hk : KernelsOK P b'.kernels) (ni : b.inputs.length ≤ 1000000) (no : b.outputs.length ≤ 1000000)
    (nk : b.kernels.length ≤ 1000000) (li : b'.inputs.length = b.inputs.length)
    (lo : b'.outputs.length = b.outputs.length) (lk : b'.kernels.length = b.kernels.length) :
    ∃ v, wire b (items b') = .ok v ∧ Reads (Block.read E) v { b' with header := onWire b.header } := by
  obtain ⟨w, hw, -, hr⟩ := C12_header_roundtrip E hmem b.header wf
  refine ⟨_, by simp only [wire, hw, Out.bind_ok, Out.pure_def]; rfl, ?_⟩
  intro r
  obtain ⟨ti, mi⟩ := ofNat_le_max ni
  obtain ⟨t_o, mo⟩ := ofNat_le_max no
  obtain ⟨tk, mk⟩ := ofNat_le_max nk
  have ri := Reads.readMany (rd := Input.read) Input.bytes b'.inputs (fun i h => (C28_input i (hi i h)).2)
  have ro := Reads.readMany (rd := Output.read E) Output.bytes b'.outputs
    (fun o h => by
      obtain ⟨h1, h2, h3⟩ := ho o h
      exact (C28_output E P Q hE hQ o h1 h2 h3).2)
  have rk := Reads.readMany (rd := TxKernel.read E) (TxKernel.bytes E) b'.kernels
    (fun k h => by
      obtain ⟨h1, h2⟩ := hk k h
      exact (C28_kernel E P hE k h1 h2).2)
  rw [li] at ri; rw [lo] at ro; rw [lk] at rk
  have e1 : b.inputs.length * 32 ≤ E.maxAlloc := by
    have := Nat.mul_le_mul_right 32 ni; omega
  have e2 : b.outputs.length * E.outputSize ≤ E.maxAlloc := by
    have := Nat.mul_le_mul_right E.outputSize no
    rw [Nat.mul_add] at hmem2; omega
  have e3 : b.kernels.length * 104 ≤ E.maxAlloc := by
    have := Nat.mul_le_mul_right 104 nk; omega
  have fm : (items b').flatMap Item.bytes = b'.inputs.flatMap Input.bytes ++ (b'.outputs.flatMap Output.bytes ++
      b'.kernels.flatMap (TxKernel.bytes E)) := by
    simp only [items, List.flatMap_append, List.flatMap_map, Item.bytes]
  simp only [fm, Block.read, List.append_assoc, Rd.bind_run, hr _, Rd.cont_ok, Rd.u64_be64]
  rw [if_neg mi, if_neg mo, if_neg mk]
  simp only [Rd.bind_run, ti, t_o, tk, Rd.make_ok e1, Rd.make_ok e2, Rd.make_ok e3, Rd.cont_ok, ri _, ro _,
    rk _, Rd.pure_run]

/-- Which of the three lists an element belongs to. -/
def kindOf : Item E → Nat
  | .input _ => 0
  | .output _ => 1
  | .kernel _ => 2

/-- Which of the three lists a place in memory belongs to. -/
def placeOf (b : Block E) (n : Nat) : Nat :=
  if n < b.inputs.length then 0 else if n < b.inputs.length + b.outputs.length then 1 else 2

theorem items_kinds (b : Block E) (n : Nat) (x : Item E) (h : (items b)[n]? = some x) : kindOf x = placeOf b n := by
  unfold items at h
  unfold placeOf
  by_cases h1 : n < b.inputs.length
  · rw [List.getElem?_append_left (by simpa using h1)] at h
    simp only [List.getElem?_map, Option.map_eq_some_iff] at h
    obtain ⟨i, -, rfl⟩ := h
    rw [if_pos h1]; rfl
  · rw [if_neg h1]
    rw [List.getElem?_append_right (by simpa using h1), List.length_map] at h
    by_cases h2 : n < b.inputs.length + b.outputs.length
    · rw [List.getElem?_append_left (by rw [List.length_map]; omega)] at h
      simp only [List.getElem?_map, Option.map_eq_some_iff] at h
      obtain ⟨i, -, rfl⟩ := h
      rw [if_pos h2]; rfl
    · rw [List.getElem?_append_right (by rw [List.length_map]; omega)] at h
      simp only [List.getElem?_map, Option.map_eq_some_iff] at h
      obtain ⟨i, -, rfl⟩ := h
      rw [if_neg h2]; rfl

theorem all_inputs (l : List (Item E)) (h : ∀ x ∈ l, kindOf x = 0) : ∃ ls : List Input, l = ls.map .input := by
  induction l with
  | nil => exact ⟨[], rfl⟩
  | cons x l ih =>
    obtain ⟨ls, rfl⟩ := ih fun y hy => h y (List.mem_cons_of_mem _ hy)
    have := h x List.mem_cons_self
    cases x with
    | input i => exact ⟨i :: ls, rfl⟩
    | output o => cases this
    | kernel k => cases this

theorem all_outputs (l : List (Item E)) (h : ∀ x ∈ l, kindOf x = 1) : ∃ ls : List (Output E), l = ls.map .output := by
  induction l with
  | nil => exact ⟨[], rfl⟩
  | cons x l ih =>
    obtain ⟨ls, rfl⟩ := ih fun y hy => h y (List.mem_cons_of_mem _ hy)
    have := h x List.mem_cons_self
    cases x with
    | input i => cases this
    | output o => exact ⟨o :: ls, rfl⟩
    | kernel k => cases this

theorem all_kernels (l : List (Item E)) (h : ∀ x ∈ l, kindOf x = 2) : ∃ ls : List TxKernel, l = ls.map .kernel := by
  induction l with
  | nil => exact ⟨[], rfl⟩
  | cons x l ih =>
    obtain ⟨ls, rfl⟩ := ih fun y hy => h y (List.mem_cons_of_mem _ hy)
    have := h x List.mem_cons_self
    cases x with
    | input i => cases this
    | output o => cases this
    | kernel k => exact ⟨k :: ls, rfl⟩

/-- Elements that stand where elements of their list belong are the elements of a block. -/
theorem of_kinds (b : Block E) (out : List (Item E)) (hl : out.length = (items b).length)
    (hk : ∀ n x, out[n]? = some x → kindOf x = placeOf b n) :
    ∃ b' : Block E, items b' = out ∧ b'.header = b.header ∧ b'.inputs.length = b.inputs.length ∧
      b'.outputs.length = b.outputs.length ∧ b'.kernels.length = b.kernels.length := by
  have hl' : out.length = b.inputs.length + (b.outputs.length + b.kernels.length) := by
    rw [hl]; simp [items]
  obtain ⟨is, hi⟩ := all_inputs (out.take b.inputs.length) (by
    intro x hx
    obtain ⟨n, hn, rfl⟩ := List.getElem_of_mem hx
    rw [List.length_take] at hn
    have := hk n out[n] (List.getElem?_eq_getElem (by omega))
    rw [placeOf, if_pos (by omega)] at this
    rw [List.getElem_take]; exact this)
  obtain ⟨os, ho⟩ := all_outputs ((out.drop b.inputs.length).take b.outputs.length) (by
    intro x hx
    obtain ⟨n, hn, rfl⟩ := List.getElem_of_mem hx
    rw [List.length_take, List.length_drop] at hn
    have := hk (b.inputs.length + n) out[b.inputs.length + n] (List.getElem?_eq_getElem (by omega))
    rw [placeOf, if_neg (by omega), if_pos (by omega)] at this
    rw [List.getElem_take, List.getElem_drop]; exact this)
  obtain ⟨ks, hq⟩ := all_kernels ((out.drop b.inputs.length).drop b.outputs.length) (by
    intro x hx
    obtain ⟨n, hn, rfl⟩ := List.getElem_of_mem hx
    rw [List.length_drop, List.length_drop] at hn
    have := hk (b.inputs.length + (b.outputs.length + n)) out[b.inputs.length + (b.outputs.length + n)]
      (List.getElem?_eq_getElem (by omega))
    rw [placeOf, if_neg (by omega), if_neg (by omega)] at this
    rw [List.getElem_drop, List.getElem_drop]; exact this)
  refine ⟨{ header := b.header, inputs := is, outputs := os, kernels := ks }, ?_, rfl, ?_, ?_, ?_⟩
  · show is.map _ ++ (os.map _ ++ ks.map _) = out
    rw [← hi, ← ho, ← hq, List.take_append_drop, List.take_append_drop]
  · have := congrArg List.length hi
    rw [List.length_take, List.length_map] at this
    show is.length = _; omega
  · have := congrArg List.length ho
    rw [List.length_take, List.length_drop, List.length_map] at this
    show os.length = _; omega
  · have := congrArg List.length hq
    rw [List.length_drop, List.length_drop, List.length_map] at this
    show ks.length = _; omega

theorem sorting_ok (b : Block E) (pi po pk : Prog) (hi : Sorts (Input.less E) pi b.inputs)
    (ho : Sorts Output.less po b.outputs) (hk : Sorts (TxKernel.less E) pk b.kernels) :
    (sorting b pi po pk).InRange (items b).length ∧ (sorting b pi po pk).Within (placeOf b) ∧
    ∃ b' : Block E, (sorting b pi po pk).exec Item.less (items b) = some (items b') ∧
      isSorted (Input.less E) b'.inputs = true ∧ isSorted Output.less b'.outputs = true ∧
      isSorted (TxKernel.less E) b'.kernels = true := by
  obtain ⟨ri, i', ei, si⟩ := hi
  obtain ⟨ro, o', eo, so⟩ := ho
  obtain ⟨rk, k', ek, sk⟩ := hk
  have li : i'.length = b.inputs.length := by
    obtain ⟨r, h1, h2, -⟩ := solo (Input.less E) pi b.inputs ri
    rw [ei] at h1; cases h1; exact h2.length_eq
  have lo : o'.length = b.outputs.length := by
    obtain ⟨r, h1, h2, -⟩ := solo Output.less po b.outputs ro
    rw [eo] at h1; cases h1; exact h2.length_eq
  have hlen : (items b).length = b.inputs.length + (b.outputs.length + b.kernels.length) := by simp [items]
  refine ⟨?_, ?_, { b with inputs := i', outputs := o', kernels := k' }, ?_, si, so, sk⟩
  · rw [hlen]
    unfold sorting
    rw [← shift_zero pi]
    exact inRange_seq (inRange_shift ri (by omega)) (inRange_seq (inRange_shift ro (by omega))
      (inRange_shift rk (by omega)))
  · unfold sorting
    rw [← shift_zero pi]
    refine within_seq (within_shift (c := 0) ri ?_) (within_seq (within_shift (c := 1) ro ?_)
      (within_shift (c := 2) rk ?_))
    · intro i h; unfold placeOf; rw [if_pos (by omega)]
    · intro i h; unfold placeOf; rw [if_neg (by omega), if_pos (by omega)]
    · intro i h; unfold placeOf; rw [if_neg (by omega), if_neg (by omega)]
  · unfold sorting items
    rw [exec_seq, ← shift_zero pi]
    have h1 := exec_shift (Input.less E) Item.less Item.input (fun _ _ => rfl) ([] : List (Item E))
      (b.outputs.map .output ++ b.kernels.map .kernel) pi b.inputs ri
    simp only [List.length_nil, List.nil_append, ei, Option.map_some] at h1
    rw [h1, Option.bind_some, exec_seq]
    have h2 := exec_shift Output.less Item.less Item.output (fun _ _ => rfl) (i'.map Item.input)
      (b.kernels.map .kernel) po b.outputs ro
    rw [List.length_map, li, eo, Option.map_some] at h2
    rw [h2, Option.bind_some]
    have h3 := exec_shift (TxKernel.less E) Item.less Item.kernel (fun _ _ => rfl)
      (i'.map Item.input ++ o'.map Item.output) [] pk b.kernels rk
    rw [List.length_append, List.length_map, List.length_map, li, lo, ek, Option.map_some] at h3
    simp only [List.append_nil, List.append_assoc] at h3
    exact h3

theorem items_inj {a b : Block E} (h : items a = items b) (li : a.inputs.length = b.inputs.length)
    (lo : a.outputs.length = b.outputs.length) :
    a.inputs = b.inputs ∧ a.outputs = b.outputs ∧ a.kernels = b.kernels := by
  unfold items at h
  obtain ⟨h1, h2⟩ := List.append_inj h (by simpa using li)
  obtain ⟨h2, h3⟩ := List.append_inj h2 (by simpa using lo)
  refine ⟨?_, ?_, ?_⟩
  · exact List.map_injective_iff.2 (fun _ _ e => by cases e; rfl) h1
  · exact List.map_injective_iff.2 (fun _ _ e => by cases e; rfl) h2
  · exact List.map_injective_iff.2 (fun _ _ e => by cases e; rfl) h3

/-- **C101 refuted.** Take any well-formed block with at least one list that is not in order, and any sorting
algorithm. When two write goroutines serialise the block at the same time there is a schedule in which what each of
them sends is read back as a block that does not have the elements of the original: an element is lost and another
one appears twice, in both peers' copies. -/
theorem C101_refuted (E : Env) (P : Point → Prop) (Q : E.Prf → Prop) (hE : PointCodec E P)
    (hQ : PrfCodec E Q) (hmem : 336 ≤ E.maxAlloc)
    (hmem2 : 1000000 * (104 + E.outputSize) ≤ E.maxAlloc) (b : Block E)
    (wf : WellFormedHeader b.header) (hi : InputsOK b.inputs) (ho : OutputsOK P Q b.outputs)
    (hk : KernelsOK P b.kernels) (ni : b.inputs.length ≤ 1000000) (no : b.outputs.length ≤ 1000000)
    (nk : b.kernels.length ≤ 1000000) (inputs outputs kernels : Prog)
    (si : Sorts (Input.less E) inputs b.inputs) (so : Sorts Output.less outputs b.outputs)
    (sk : Sorts (TxKernel.less E) kernels b.kernels)
    (unsorted : isSorted (Input.less E) b.inputs = false ∨ isSorted Output.less b.outputs = false ∨
      isSorted (TxKernel.less E) b.kernels = false) :
    ∃ s out1 out2, Steps Item.less (begin_ b inputs outputs kernels 2) s ∧
      s.threads = [.finished out1, .finished out2] ∧
      ∀ out, out = out1 ∨ out = out2 → ∃ v b', wire b out = .ok v ∧ Reads (Block.read E) v b' ∧
        ¬ (b'.inputs.Perm b.inputs ∧ b'.outputs.Perm b.outputs ∧ b'.kernels.Perm b.kernels) := by
  obtain ⟨h1, h2, bs, h3, s1, s2, s3⟩ := sorting_ok b inputs outputs kernels si so sk
  have hne : items bs ≠ items b := by
    intro h
    have hl := congrArg List.length h
    obtain ⟨r, g1, g2, -⟩ := solo Item.less _ _ h1
    rw [h3] at g1; cases g1
    -- the same lengths, hence the same lists
    have hk := exec_kinds Item.less kindOf (placeOf b) _ _ _ h2 (items_kinds b) h3
    obtain ⟨b', e1, -, l1, l2, l3⟩ := of_kinds b (items b) rfl (items_kinds b)
    have : bs.inputs.length = b.inputs.length ∧ bs.outputs.length = b.outputs.length := by
      have count : ∀ (c : Block E), (items c).countP (fun x => kindOf x == 0) = c.inputs.length ∧
          (items c).countP (fun x => kindOf x == 1) = c.outputs.length := by
        intro c
        constructor <;>
          simp [items, List.countP_append, List.countP_map, Function.comp_def, kindOf]
      exact ⟨by rw [← (count bs).1, h, (count b).1], by rw [← (count bs).2, h, (count b).2]⟩
    obtain ⟨q1, q2, q3⟩ := items_inj h this.1 this.2
    rw [q1] at s1; rw [q2] at s2; rw [q3] at s3
    rw [s1, s2, s3] at unsorted
    simp at unsorted
  obtain ⟨o1, o2, hs, c1, c2⟩ := race Item.less kindOf (placeOf b) _ _ _ h1 h2 (items_kinds b) h3 hne
  refine ⟨_, o1, o2, hs, rfl, ?_⟩
  intro out hout
  have c : ¬ out.Perm (items b) ∧ out.length = (items b).length ∧ (∀ x ∈ out, x ∈ items b) ∧
      ∀ n x, out[n]? = some x → kindOf x = placeOf b n := by
    rcases hout with rfl | rfl
    · exact c1
    · exact c2
  obtain ⟨np, hl, sub, hkind⟩ := c
  obtain ⟨b', rfl, -, l1, l2, l3⟩ := of_kinds b out hl hkind
  have mi : ∀ i ∈ b'.inputs, i ∈ b.inputs := by
    intro i h
    have := sub (.input i) (by simp [items, h])
    simpa [items] using this
  have mo : ∀ o ∈ b'.outputs, o ∈ b.outputs := by
    intro i h
    have := sub (.output i) (by simp [items, h])
    simpa [items] using this
  have mk : ∀ k ∈ b'.kernels, k ∈ b.kernels := by
    intro i h
    have := sub (.kernel i) (by simp [items, h])
    simpa [items] using this
  obtain ⟨v, hv, hr⟩ := wire_reads E P Q hE hQ hmem hmem2 b b' wf (fun i h => hi i (mi i h))
    (fun o h => ho o (mo o h)) (fun k h => hk k (mk k h)) ni no nk l1 l2 l3
  refine ⟨v, _, hv, hr, ?_⟩
  rintro ⟨p1, p2, p3⟩
  exact np ((p1.map _).append ((p2.map _).append (p3.map _)))

/-- **C101, what holds.** If the sort makes no swap on a list that is in order already (as insertion sort, which
`sort.Sort` uses for short lists), a block whose lists are in order can be serialised by any number of goroutines at
once. In every schedule the block stays as it is, no goroutine gets stuck, and each one that is done has sent bytes
that are read back as this very block. -/
theorem C101_sorted_partial (E : Env) (P : Point → Prop) (Q : E.Prf → Prop) (hE : PointCodec E P)
    (hQ : PrfCodec E Q) (hmem : 336 ≤ E.maxAlloc)
    (hmem2 : 1000000 * (104 + E.outputSize) ≤ E.maxAlloc) (b : Block E)
    (wf : WellFormedHeader b.header) (hi : InputsOK b.inputs) (ho : OutputsOK P Q b.outputs)
    (hk : KernelsOK P b.kernels) (ni : b.inputs.length ≤ 1000000) (no : b.outputs.length ≤ 1000000)
    (nk : b.kernels.length ≤ 1000000) (inputs outputs kernels : Prog)
    (qi : inputs.Quiet (Input.less E) b.inputs) (qo : outputs.Quiet Output.less b.outputs)
    (qk : kernels.Quiet (TxKernel.less E) b.kernels) (n : Nat) (s : Sys (Item E))
    (h : Steps Item.less (begin_ b inputs outputs kernels n) s) :
    s.mem = items b ∧ s.threads.length = n ∧
    (∀ (t : Nat) (th : Thread (Item E)), s.threads[t]? = some th → (∀ out, th ≠ Thread.finished out) → ∃ s', Step Item.less s s') ∧
    ∀ out, Thread.finished out ∈ s.threads →
      ∃ v, wire b out = .ok v ∧ Reads (Block.read E) v { b with header := onWire b.header } := by
  have q : (sorting b inputs outputs kernels).Quiet Item.less (items b) := by
    unfold sorting items
    rw [← shift_zero inputs]
    refine quiet_seq ?_ (quiet_seq ?_ ?_)
    · exact quiet_shift (a := []) (fun _ _ => rfl) _ qi
    · have := quiet_shift (less' := Item.less) (f := Item.output) (fun _ _ => rfl) (b.inputs.map Item.input)
        (b.kernels.map .kernel) qo
      rwa [List.length_map] at this
    · have := quiet_shift (less' := Item.less) (f := Item.kernel) (fun _ _ => rfl)
        (b.inputs.map Item.input ++ b.outputs.map Item.output) [] qk
      rw [List.length_append, List.length_map, List.length_map] at this
      simpa using this
  obtain ⟨h1, h2, h3⟩ := calm_steps h (by
    intro th hth
    rw [List.eq_of_mem_replicate hth]
    exact q)
  change s.mem = items b at h1
  change ∀ th ∈ s.threads, Calm Item.less (items b) th at h2
  refine ⟨h1, by rw [h3]; simp [begin_], ?_, ?_⟩
  · intro t th ht hf
    obtain ⟨th', st⟩ := calm_progress (h2 th (List.mem_of_getElem? ht)) hf
    rw [← h1] at st
    exact ⟨_, .mk ht st⟩
  · intro out hout
    have : out = items b := h2 _ hout
    rw [this]
    exact wire_reads E P Q hE hQ hmem hmem2 b b wf hi ho hk ni no nk rfl rfl rfl

/-- Insertion sort is an instance: it sorts every list of inputs, outputs and kernels, and swaps nothing in a list
that is in order. -/
theorem C101_insertion (E : Env) (b : Block E) :
    (Sorts (Input.less E) (insertionSort b.inputs.length) b.inputs ∧
      Sorts Output.less (insertionSort b.outputs.length) b.outputs ∧
      Sorts (TxKernel.less E) (insertionSort b.kernels.length) b.kernels) ∧
    (isSorted (Input.less E) b.inputs = true →
      (insertionSort b.inputs.length).Quiet (Input.less E) b.inputs) ∧
    (isSorted Output.less b.outputs = true → (insertionSort b.outputs.length).Quiet Output.less b.outputs) ∧
    (isSorted (TxKernel.less E) b.kernels = true →
      (insertionSort b.kernels.length).Quiet (TxKernel.less E) b.kernels) := by
  have asymm : ∀ x y : Bytes, bytesLt x y = true → bytesLt y x = false := by
    intro x y h
    cases h' : bytesLt y x with
    | false => rfl
    | true => have := bytesLt_trans h h'; rw [bytesLt_irrefl] at this; cases this
  refine ⟨⟨⟨insertionSort_inRange _, ?_⟩, ⟨insertionSort_inRange _, ?_⟩, ⟨insertionSort_inRange _, ?_⟩⟩,
    insertionSort_quiet, insertionSort_quiet, insertionSort_quiet⟩
  · obtain ⟨r, h1, -, h2⟩ := insertionSort_exec (less := Input.less E) (fun _ _ => asymm _ _)
      (fun _ _ _ => bytesLe_trans) b.inputs
    exact ⟨r, h1, h2⟩
  · obtain ⟨r, h1, -, h2⟩ := insertionSort_exec (less := Output.less (E := E)) (fun _ _ => asymm _ _)
      (fun _ _ _ => bytesLe_trans) b.outputs
    exact ⟨r, h1, h2⟩
  · obtain ⟨r, h1, -, h2⟩ := insertionSort_exec (less := TxKernel.less E) (fun _ _ => asymm _ _)
      (fun _ _ _ => bytesLe_trans) b.kernels
    exact ⟨r, h1, h2⟩

end Gringo.Props
