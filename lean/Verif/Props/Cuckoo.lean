import Verif.Proofs.Cuckoo
import Verif.Proofs.Order
import Verif.Spec.SipBlock
import Verif.Spec.Assumptions
/-
C40-C45: the proof-of-work verifiers.
-/
namespace Gringo.Props
open Gringo.Spec Gringo.Cuckoo

/-- The nonces are strictly increasing. -/
def Increasing (l : List UInt32) : Prop := l.Pairwise (fun a b => a.toNat < b.toNat)

theorem buildEdges_spec (bad : UInt32 → Bool) (mk : UInt32 → Edge) : ∀ (l : List UInt32) (prev : Option UInt32)
    (es : List Edge), buildEdges bad mk prev l = some es ↔
      (prev.toList ++ l).IsChain (fun a b => a.toNat < b.toNat) ∧ (∀ n ∈ l, bad n = false) ∧ es = l.map mk := by
  intro l
  induction l with
  | nil => intro prev es; cases prev <;> simp [buildEdges.eq_def]
  | cons n rest ih =>
    intro prev es
    have tail : ∀ es, (buildEdges bad mk (some n) rest).map (mk n :: ·) = some es ↔
        (n :: rest).IsChain (fun a b => a.toNat < b.toNat) ∧ (∀ n ∈ rest, bad n = false) ∧
          es = (n :: rest).map mk := by
      intro es
      rw [Option.map_eq_some_iff]
      constructor
      · rintro ⟨es', h1, rfl⟩
        obtain ⟨h2, h3, rfl⟩ := (ih _ _).1 h1
        exact ⟨h2, h3, rfl⟩
      · rintro ⟨h2, h3, rfl⟩
        exact ⟨rest.map mk, (ih _ _).2 ⟨h2, h3, rfl⟩, rfl⟩
    rw [buildEdges.eq_def]
    simp only
    by_cases hb : bad n = true
    · simp [hb]
    have hb' : bad n = false := by simpa using hb
    cases prev with
    | none =>
      simp only [hb', Bool.false_or, Bool.false_eq_true, if_false]
      rw [tail]
      simp [hb']
    | some p =>
      simp only [hb', Bool.false_or, decide_eq_true_eq]
      by_cases hp : n ≤ p
      · rw [if_pos hp]
        simp only [reduceCtorEq, false_iff]
        rintro ⟨h, -⟩
        have h : List.IsChain (fun a b : UInt32 => a.toNat < b.toNat) (p :: n :: rest) := h
        rw [List.isChain_cons_cons] at h
        rw [UInt32.le_iff_toNat_le] at hp
        omega
      · rw [if_neg hp, tail]
        have hp' : p.toNat < n.toNat := by rw [UInt32.le_iff_toNat_le] at hp; omega
        show _ ↔ List.IsChain (fun a b : UInt32 => a.toNat < b.toNat) (p :: n :: rest) ∧ _
        rw [List.isChain_cons_cons]
        simp [hb', hp']

theorem chain_iff_increasing (l : List UInt32) :
    l.IsChain (fun a b => a.toNat < b.toNat) ↔ Increasing l := by
  have : IsTrans UInt32 (fun a b => a.toNat < b.toNat) := ⟨fun _ _ _ h1 h2 => Nat.lt_trans h1 h2⟩
  exact List.isChain_iff_pairwise

/-- **C40, Cuckaroo.** -/
theorem C40_cuckaroo (c : Cuckaroo) (nonces : List UInt32) (edgeBits : UInt8) :
    c.verify nonces edgeBits = true ↔
      nonces ≠ [] ∧ Increasing nonces ∧ (∀ n ∈ nonces, n.toNat < 2 ^ edgeBits.toNat) ∧
      findCycleLength (nonces.map (fun n => c.newEdge n (shl1 edgeBits - 1))) = nonces.length := by
  unfold Cuckaroo.verify
  by_cases h0 : nonces = []
  · simp [h0]
  rw [if_neg (fun h => h0 (List.length_eq_zero_iff.1 h))]
  simp only
  have hr : ∀ n : UInt32, (decide (n.toUInt64 > shl1 edgeBits - 1) = false ↔ n.toNat < 2 ^ edgeBits.toNat) := by
    intro n
    have hn : n.toUInt64.toNat = n.toNat := UInt32.toNat_toUInt64 n
    have hlt : n.toNat < 2 ^ 32 := UInt32.toNat_lt n
    rw [decide_eq_false_iff_not, gt_iff_lt, UInt64.lt_iff_toNat_lt, hn, Nat.not_lt]
    by_cases he : edgeBits.toNat < 64
    · have h1 : (2 : Nat) ^ edgeBits.toNat < 2 ^ 64 := Nat.pow_lt_pow_right (by decide) he
      have hp : 0 < (2 : Nat) ^ edgeBits.toNat := Nat.two_pow_pos _
      have : (shl1 edgeBits - 1).toNat = 2 ^ edgeBits.toNat - 1 := by
        have hs : (shl1 edgeBits).toNat = 2 ^ edgeBits.toNat := by
          unfold shl1; rw [UInt64.toNat_ofNat', Nat.mod_eq_of_lt h1]
        rw [UInt64.toNat_sub_of_le _ _ (by rw [UInt64.le_iff_toNat_le, hs]; exact hp), hs]; rfl
      rw [this]; omega
    · have h1 : (2 : Nat) ^ 64 ∣ 2 ^ edgeBits.toNat := Nat.pow_dvd_pow 2 (by omega)
      have hs : shl1 edgeBits = 0 := by
        rw [← UInt64.toNat_inj]; unfold shl1; rw [UInt64.toNat_ofNat', Nat.mod_eq_zero_of_dvd h1]; rfl
      have h2 : (2 : Nat) ^ 64 ≤ 2 ^ edgeBits.toNat := Nat.le_of_dvd (Nat.two_pow_pos _) h1
      rw [hs]
      have : ((0 : UInt64) - 1).toNat = 2 ^ 64 - 1 := by decide
      rw [this]; omega
  have hspec := buildEdges_spec (fun n => decide (n.toUInt64 > shl1 edgeBits - 1)) (fun n => c.newEdge n (shl1 edgeBits - 1)) nonces none
  simp only [Option.toList_none, List.nil_append, chain_iff_increasing, hr] at hspec
  cases hb : buildEdges (fun n => decide (n.toUInt64 > shl1 edgeBits - 1)) (fun n => c.newEdge n (shl1 edgeBits - 1)) none nonces with
  | none =>
    simp only [Bool.false_eq_true, false_iff]
    rintro ⟨-, h1, h2, -⟩
    have := (hspec _).2 ⟨h1, h2, rfl⟩
    rw [hb] at this
    cases this
  | some es =>
    obtain ⟨h1, h2, rfl⟩ := (hspec es).1 hb
    simp only [beq_iff_eq]
    exact ⟨fun h => ⟨h0, h1, h2, h⟩, fun h => h.2.2.2⟩

/-- **C40, Cuckoo.** The range check is `nonce < ease * size / 100` in 64-bit arithmetic. -/
theorem C40_cuckoo (c : Cuckoo.Cuckoo) (nonces : List UInt32) (ease : UInt64) :
    c.verify nonces ease = true ↔
      nonces ≠ [] ∧ Increasing nonces ∧
      (∀ n ∈ nonces, n.toNat < ease.toNat * c.size.toNat % 2 ^ 64 / 100) ∧
      findCycleLength (nonces.map c.newEdge) = nonces.length := by
  unfold Cuckoo.verify
  by_cases h0 : nonces = []
  · simp [h0]
  rw [if_neg (fun h => h0 (List.length_eq_zero_iff.1 h))]
  simp only
  have hr : ∀ n : UInt32, (decide (n.toUInt64 ≥ ease * c.size / 100) = false ↔
      n.toNat < ease.toNat * c.size.toNat % 2 ^ 64 / 100) := by
    intro n
    have hn : n.toUInt64.toNat = n.toNat := UInt32.toNat_toUInt64 n
    rw [decide_eq_false_iff_not, ge_iff_le, UInt64.le_iff_toNat_le, hn, Nat.not_le, UInt64.toNat_div,
      UInt64.toNat_mul]
    rfl
  have hspec := buildEdges_spec (fun n => decide (n.toUInt64 ≥ ease * c.size / 100)) c.newEdge nonces none
  simp only [Option.toList_none, List.nil_append, chain_iff_increasing, hr] at hspec
  cases hb : buildEdges (fun n => decide (n.toUInt64 ≥ ease * c.size / 100)) c.newEdge none nonces with
  | none =>
    simp only [Bool.false_eq_true, false_iff]
    rintro ⟨-, h1, h2, -⟩
    have := (hspec _).2 ⟨h1, h2, rfl⟩
    rw [hb] at this
    cases this
  | some es =>
    obtain ⟨h1, h2, rfl⟩ := (hspec es).1 hb
    simp only [beq_iff_eq]
    exact ⟨fun h => ⟨h0, h1, h2, h⟩, fun h => h.2.2.2⟩

/-- **C41.** The loop of the cycle check, run for as many turns as there are edges plus one, has reached its
`break` (so the model's bound on the number of turns is never what ends it), and the result is at most the
number of edges. -/
theorem C41_terminates (es : List Edge) :
    walkStep es (walk es (es.length + 1) walkInit) = none ∧ findCycleLength es ≤ es.length := by
  refine ⟨walk_stops es, ?_⟩
  by_cases h : 0 < es.length
  · obtain ⟨w, tr, hi, -, e⟩ := final_inv h
    rw [e]; exact hi.le
  · have : es = [] := List.length_eq_zero_iff.1 (by omega)
    subst this
    decide

/-- More turns do not change the result: the bound on the number of turns is immaterial. -/
theorem C41_fuel (es : List Edge) (k : Nat) :
    (walk es (es.length + 1 + k) walkInit).cycle = findCycleLength es := by
  have key : ∀ (f : Nat) (w : Walk) (k : Nat), walkStep es (walk es f w) = none →
      walk es (f + k) w = walk es f w := by
    intro f
    induction f with
    | zero =>
      intro w k h
      rw [Nat.zero_add]
      cases k with
      | zero => rfl
      | succ k => rw [walk] at h; simp only [walk, h]
    | succ f ih =>
      intro w k h
      rw [show f + 1 + k = (f + k) + 1 by omega, walk, walk]
      rw [walk] at h
      cases hs : walkStep es w with
      | none => rfl
      | some w' => rw [hs] at h; exact ih w' k h
  unfold findCycleLength
  rw [key _ _ _ (walk_stops es)]

/-- **C42.** -/
theorem C42_accepts_cycles (es : List Edge) (h : IsCycle es) : findCycleLength es = es.length := complete h

/-- **C43, the part that holds.** If no vertex has three edges, the check returns `n` exactly on cycles.
Without that condition it accepts other graphs: see `C43_refuted`. -/
theorem C43_sound_partial (es : List Edge) (hne : es ≠ []) :
    (findCycleLength es = es.length ∧ NoBranch es) ↔ IsCycle es :=
  ⟨fun h => sound hne h.2 h.1, fun h => ⟨complete h, noBranch_of_cycle h⟩⟩

theorem noBranch_of_check {es : List Edge}
    (h : ∀ i : Fin es.length, ∀ j : Fin es.length, ∀ k : Fin es.length,
      (es[i].U = es[j].U → es[i].U = es[k].U → i = j ∨ i = k ∨ j = k) ∧
      (es[i].V = es[j].V → es[i].V = es[k].V → i = j ∨ i = k ∨ j = k)) : NoBranch es := by
  constructor
  · rintro i j k ⟨a, b, h1, h2, h3⟩ ⟨a', c, h4, h5, h6⟩
    rw [h1] at h4; cases h4
    obtain ⟨hi, rfl⟩ := List.getElem?_eq_some_iff.1 h1
    obtain ⟨hj, rfl⟩ := List.getElem?_eq_some_iff.1 h2
    obtain ⟨hk, rfl⟩ := List.getElem?_eq_some_iff.1 h5
    simpa using (h ⟨i, hi⟩ ⟨j, hj⟩ ⟨k, hk⟩).1 h3 h6
  · rintro i j k ⟨a, b, h1, h2, h3⟩ ⟨a', c, h4, h5, h6⟩
    rw [h1] at h4; cases h4
    obtain ⟨hi, rfl⟩ := List.getElem?_eq_some_iff.1 h1
    obtain ⟨hj, rfl⟩ := List.getElem?_eq_some_iff.1 h2
    obtain ⟨hk, rfl⟩ := List.getElem?_eq_some_iff.1 h5
    simpa using (h ⟨i, hi⟩ ⟨j, hj⟩ ⟨k, hk⟩).2 h3 h6

/-- The hexagon of cuckoo/cuckoo_test.go is a cycle, so C42 and C43 speak about existing graphs. -/
theorem hexagon : IsCycle [⟨8, 5⟩, ⟨10, 5⟩, ⟨4, 9⟩, ⟨4, 13⟩, ⟨8, 9⟩, ⟨10, 13⟩] :=
  (C43_sound_partial _ (by simp)).1 ⟨by decide, noBranch_of_check (by decide)⟩

/-- **C43 is false of the code.** For all distinct `u`, `x` and all distinct `v`, `w` the four edges below,
a double edge with a path of two edges attached, pass the check as a cycle of four. -/
theorem C43_refuted (u v w x : UInt64) (hux : u ≠ x) (hvw : v ≠ w) :
    findCycleLength [⟨u, v⟩, ⟨u, v⟩, ⟨u, w⟩, ⟨x, w⟩] = 4 ∧
      ¬ IsCycle [⟨u, v⟩, ⟨u, v⟩, ⟨u, w⟩, ⟨x, w⟩] := by
  constructor
  · have hxu : ¬ x = u := fun h => hux h.symm
    have hwv : ¬ w = v := fun h => hvw h.symm
    simp [findCycleLength, walk, walkStep, walkInit, matchU, matchV, setFlag, List.range, List.range.loop,
      List.find?, hxu, hwv]
  · intro h
    obtain ⟨q, -, hq⟩ := h.twoU 0 (by simp)
    have h1 := hq 1 ⟨by decide, ⟨u, v⟩, ⟨u, v⟩, rfl, rfl, rfl⟩
    have h2 := hq 2 ⟨by decide, ⟨u, v⟩, ⟨u, w⟩, rfl, rfl, rfl⟩
    rw [← h2] at h1
    cases h1

/-- The same at the verifier: what it accepts is one simple cycle provided no vertex has three edges. -/
theorem C43_verify_partial (c : Cuckaroo) (nonces : List UInt32) (edgeBits : UInt8)
    (h : c.verify nonces edgeBits = true)
    (nb : NoBranch (nonces.map (fun n => c.newEdge n (shl1 edgeBits - 1)))) :
    IsCycle (nonces.map (fun n => c.newEdge n (shl1 edgeBits - 1))) := by
  obtain ⟨h0, -, -, h1⟩ := (C40_cuckaroo c nonces edgeBits).1 h
  exact (C43_sound_partial _ (by simpa using h0)).1 ⟨by rw [h1, List.length_map], nb⟩

theorem node_value (y i : UInt64) (hi : i.toNat < 2) :
    ((y <<< 1) ||| i).toNat = 2 * (y.toNat % 2 ^ 63) + i.toNat := by
  rw [UInt64.toNat_or, UInt64.toNat_shiftLeft]
  have h2 : (1 : UInt64).toNat % 64 = 1 := rfl
  rw [h2, Nat.shiftLeft_eq, Nat.pow_one]
  generalize y.toNat = y
  have h3 : y * 2 % 2 ^ 64 = 2 ^ 1 * (y % 2 ^ 63) := by omega
  rw [h3, ← Nat.two_pow_add_eq_or_of_lt (by simpa using hi), Nat.pow_one]

theorem mask_of (E : Env) (key : Bytes) (sizeShift : UInt8) (h1 : 1 ≤ sizeShift.toNat)
    (h2 : sizeShift.toNat ≤ 63) :
    (Cuckoo.new E key sizeShift).mask.toNat = 2 ^ (sizeShift.toNat - 1) - 1 := by
  show (shl1 sizeShift / 2 - 1).toNat = _
  have hlt : (2 : Nat) ^ sizeShift.toNat < 2 ^ 64 := Nat.pow_lt_pow_right (by decide) (by omega)
  have h5 : (2 : Nat) ^ sizeShift.toNat = 2 * 2 ^ (sizeShift.toNat - 1) := by
    rw [← Nat.pow_succ', show (sizeShift.toNat - 1).succ = sizeShift.toNat by omega]
  have h6 : 0 < 2 ^ (sizeShift.toNat - 1) := Nat.two_pow_pos _
  have hs : (shl1 sizeShift).toNat = 2 ^ sizeShift.toNat := by
    unfold shl1; rw [UInt64.toNat_ofNat', Nat.mod_eq_of_lt hlt]
  have hd : (shl1 sizeShift / 2).toNat = 2 ^ (sizeShift.toNat - 1) := by
    rw [UInt64.toNat_div, hs]; show 2 ^ sizeShift.toNat / 2 = _; omega
  rw [UInt64.toNat_sub_of_le _ _ (by rw [UInt64.le_iff_toNat_le, hd]; exact h6), hd]; rfl

/-- **C44, Cuckoo.** -/
theorem C44_cuckoo (E : Env) (key : Bytes) (sizeShift : UInt8) (nonce : UInt32) :
    let e := (Cuckoo.new E key sizeShift).newEdge nonce
    e.U.toNat % 2 = 0 ∧ e.V.toNat % 2 = 1 ∧
      (1 ≤ sizeShift.toNat → sizeShift.toNat ≤ 63 →
        e.U.toNat < 2 ^ sizeShift.toNat ∧ e.V.toNat < 2 ^ sizeShift.toNat) := by
  intro e
  have node : ∀ i : UInt64, i.toNat < 2 → ∀ x mask : UInt64,
      ((((x &&& mask) <<< 1) ||| i).toNat % 2 = i.toNat) ∧
      ∀ k, 1 ≤ k → k ≤ 63 → mask.toNat = 2 ^ (k - 1) - 1 → (((x &&& mask) <<< 1) ||| i).toNat < 2 ^ k := by
    intro i hi x mask
    have e1 := node_value (x &&& mask) i hi
    refine ⟨by rw [e1]; omega, ?_⟩
    intro k hk1 hk2 hm
    have h4 : (x &&& mask).toNat ≤ mask.toNat := by rw [UInt64.toNat_and]; exact Nat.and_le_right
    have h5 : 2 ^ k = 2 * 2 ^ (k - 1) := by
      rw [← Nat.pow_succ', show (k - 1).succ = k by omega]
    have h6 : 0 < 2 ^ (k - 1) := Nat.two_pow_pos _
    rw [e1, h5]
    have := Nat.mod_le (x &&& mask).toNat (2 ^ 63)
    omega
  have hmask := mask_of E key sizeShift
  exact ⟨(node 0 (by decide) _ _).1, (node 1 (by decide) _ _).1, fun h1 h2 =>
    ⟨(node 0 (by decide) _ _).2 _ h1 h2 (hmask h1 h2), (node 1 (by decide) _ _).2 _ h1 h2 (hmask h1 h2)⟩⟩

/-- **C44, Cuckaroo.** -/
theorem C44_cuckaroo (c : Cuckaroo) (nonce : UInt32) (mask : UInt64) :
    (c.newEdge nonce mask).U ≤ mask ∧ (c.newEdge nonce mask).V ≤ mask := by
  simp only [Cuckaroo.newEdge, UInt64.le_iff_toNat_le, UInt64.toNat_and]
  exact ⟨Nat.and_le_right, Nat.and_le_right⟩

/-! ### SipHash-2-4 -/

/-- The state of the model after absorbing the first `k` nonces of the block that begins at `start`. -/
def chain (v : Sip) (start : Nat) : Nat → Sip
  | 0 => v
  | k + 1 => (chain v start k).write64 (UInt64.ofNat (start + k))

/-- The digest of that state. -/
def digest (v : Sip) (start k : Nat) : UInt64 := (chain v start k).sum64

/-- The state of the model as four 64-bit words. -/
def bits (v : Sip) : SipState :=
  { v0 := v.v0.toBitVec, v1 := v.v1.toBitVec, v2 := v.v2.toBitVec, v3 := v.v3.toBitVec }

theorem rotl_bits (x : UInt64) (k : Nat) (h0 : 0 < k) (h : k < 64) :
    (rotl x (UInt64.ofNat k)).toBitVec = x.toBitVec.rotateLeft k := by
  have e1 : (UInt64.ofNat k).toNat = k := by
    rw [UInt64.toNat_ofNat']; omega
  have e2 : (64 - UInt64.ofNat k).toNat = 64 - k := by
    rw [UInt64.toNat_sub, e1]
    have : (64 : UInt64).toNat = 64 := by decide
    rw [this]
    omega
  apply BitVec.eq_of_toNat_eq
  rw [BitVec.toNat_rotateLeft, UInt64.toNat_toBitVec, UInt64.toNat_toBitVec]
  rw [rotl, UInt64.toNat_or, UInt64.toNat_shiftLeft, UInt64.toNat_shiftRight, e1, e2,
    Nat.mod_eq_of_lt h, Nat.mod_eq_of_lt (show 64 - k < 64 by omega)]

theorem round_bits (v : Sip) : bits v.round = sipRound (bits v) := by
  have r13 : ∀ x, (rotl x 13).toBitVec = x.toBitVec.rotateLeft 13 := fun x => rotl_bits x 13 (by decide) (by decide)
  have r16 : ∀ x, (rotl x 16).toBitVec = x.toBitVec.rotateLeft 16 := fun x => rotl_bits x 16 (by decide) (by decide)
  have r17 : ∀ x, (rotl x 17).toBitVec = x.toBitVec.rotateLeft 17 := fun x => rotl_bits x 17 (by decide) (by decide)
  have r21 : ∀ x, (rotl x 21).toBitVec = x.toBitVec.rotateLeft 21 := fun x => rotl_bits x 21 (by decide) (by decide)
  have r32 : ∀ x, (rotl x 32).toBitVec = x.toBitVec.rotateLeft 32 := fun x => rotl_bits x 32 (by decide) (by decide)
  simp only [bits, Sip.round, sipRound, UInt64.toBitVec_add, UInt64.toBitVec_xor, r13, r16, r17, r21, r32]

theorem in_bits (h : Sip) (n : UInt64) :
    bits { h with v3 := h.v3 ^^^ n } = { bits h with v3 := (bits h).v3 ^^^ n.toBitVec } := by
  simp only [bits, UInt64.toBitVec_xor]

theorem out_bits (h : Sip) (n : UInt64) :
    bits { h with v0 := h.v0 ^^^ n, v2 := h.v2 ^^^ 0xff } =
      { bits h with v0 := (bits h).v0 ^^^ n.toBitVec, v2 := (bits h).v2 ^^^ 0xff } := by
  simp only [bits, UInt64.toBitVec_xor]
  rfl

theorem write64_bits (v : Sip) (n : UInt64) : bits (v.write64 n) = sipWord (bits v) n.toBitVec := by
  unfold Sip.write64
  rw [round_bits, round_bits, round_bits, round_bits, out_bits, round_bits, round_bits, in_bits]
  generalize bits v = s
  unfold sipWord
  rw [sipRounds, sipRounds, sipRounds, sipRounds, sipRounds, sipRounds, sipRounds, sipRounds]

theorem sum64_bits (v : Sip) : v.sum64.toBitVec = sipDigest (bits v) := by
  simp only [Sip.sum64, sipDigest, bits, UInt64.toBitVec_xor]

/-- **C45, the hash.** `siphash24` is SipHash-2-4 of one word as in the paper. -/
theorem C45_siphash24 (v0 v1 v2 v3 nonce : UInt64) :
    (siphash24 ⟨v0, v1, v2, v3⟩ nonce).toBitVec =
      sipDigest (sipWord ⟨v0.toBitVec, v1.toBitVec, v2.toBitVec, v3.toBitVec⟩ nonce.toBitVec) := by
  rw [siphash24, sum64_bits, write64_bits]; rfl

theorem chain_bits (v : Sip) (start k : Nat) : bits (chain v start k) = sipChain (bits v) start k := by
  induction k with
  | zero => rfl
  | succ k ih => rw [chain, write64_bits, ih, sipChain]; rfl

theorem siphash_block (v : Sip) (nonce : UInt32) :
    let b := nonce.toNat / 64 * 64
    siphashBlock v nonce.toUInt64 =
      if nonce.toNat % 64 = 63 then digest v b 64
      else digest v b (nonce.toNat % 64 + 1) ^^^ digest v b 64 := by
  intro b
  have hlt : nonce.toNat < 2 ^ 32 := UInt32.toNat_lt nonce
  have hn : nonce.toUInt64.toNat = nonce.toNat := UInt32.toNat_toUInt64 nonce
  have hb : b ≤ nonce.toNat := Nat.div_mul_le_self _ _
  have hnb : nonce.toNat = b + nonce.toNat % 64 := by omega
  have hstart : nonce.toUInt64 &&& ~~~siphashBlockMask = UInt64.ofNat b := by
    rw [← UInt64.toNat_inj, UInt64.toNat_ofNat', Nat.mod_eq_of_lt (by omega)]
    rw [UInt64.toNat_and, hn, show (~~~siphashBlockMask).toNat = 2 ^ 64 - (63 + 1) by decide]
    apply Nat.eq_of_testBit_eq
    intro i
    rw [Nat.testBit_and, Nat.testBit_two_pow_sub_succ (by decide), show (63 : Nat) = 2 ^ 6 - 1 by rfl,
      Nat.testBit_two_pow_sub_one]
    show _ = (nonce.toNat / 2 ^ 6 * 2 ^ 6).testBit i
    rw [Nat.testBit_mul_two_pow, Nat.testBit_div_two_pow]
    by_cases h6 : 6 ≤ i
    · by_cases h64 : i < 64
      · simp [h6, h64, Nat.not_lt.2 h6]
      · have : nonce.toNat.testBit i = false := Nat.testBit_lt_two_pow
          (Nat.lt_of_lt_of_le hlt (Nat.pow_le_pow_right (by decide) (by omega)))
        simp [h6, this]
    · simp [h6, Nat.lt_of_not_le h6]
  have hloop : ∀ (k j : Nat) (acc : UInt64), j + k = 64 →
      blockLoop nonce.toUInt64 k (UInt64.ofNat (b + j)) (chain v b j) acc =
        (chain v b 64, if j ≤ nonce.toNat % 64 then digest v b (nonce.toNat % 64 + 1) else acc) := by
    intro k
    induction k with
    | zero =>
      intro j acc hj
      rw [blockLoop, show j = 64 by omega, if_neg (by omega)]
    | succ k ih =>
      intro j acc hj
      rw [blockLoop]
      have h1 : UInt64.ofNat (b + j) + 1 = UInt64.ofNat (b + (j + 1)) := by
        rw [← UInt64.toNat_inj, UInt64.toNat_add, UInt64.toNat_ofNat', UInt64.toNat_ofNat']
        show ((b + j) % 2 ^ 64 + 1) % 2 ^ 64 = _
        omega
      have h2 : UInt64.ofNat (b + j) = nonce.toUInt64 ↔ j = nonce.toNat % 64 := by
        rw [← UInt64.toNat_inj, UInt64.toNat_ofNat', hn]; omega
      simp only [h1]
      rw [show (chain v b j).write64 (UInt64.ofNat (b + j)) = chain v b (j + 1) from rfl, ih _ _ (by omega)]
      congr 1
      by_cases hj2 : j = nonce.toNat % 64
      · rw [if_pos (h2.2 hj2), if_neg (by omega), if_pos (by omega), hj2]; rfl
      · rw [if_neg (fun h => hj2 (h2.1 h))]
        by_cases hj3 : j ≤ nonce.toNat % 64
        · rw [if_pos (by omega), if_pos hj3]
        · rw [if_neg (by omega), if_neg hj3]
  have hl := hloop 64 0 0 rfl
  rw [Nat.add_zero, if_pos (by omega)] at hl
  have hlast : nonce.toUInt64 = UInt64.ofNat b + siphashBlockMask ↔ nonce.toNat % 64 = 63 := by
    rw [← UInt64.toNat_inj, UInt64.toNat_add, UInt64.toNat_ofNat', hn]
    show nonce.toNat = (b % 2 ^ 64 + 63) % 2 ^ 64 ↔ _
    omega
  unfold siphashBlock
  simp only [hstart]
  rw [show siphashBlockSize.toNat = 64 from rfl, show v = chain v b 0 from rfl, hl]
  by_cases h63 : nonce.toNat % 64 = 63
  · rw [if_pos (hlast.2 h63), if_pos h63]; rfl
  · rw [if_neg (fun h => h63 (hlast.1 h)), if_neg h63]; rfl

/-- **C45.** `siphashBlock` of a 32-bit nonce is the block hash of the specification: the digest after the nonce
XOR the digest at the end of its block of 64, or the latter alone for the last nonce of the block. -/
theorem C45_siphash_block (v0 v1 v2 v3 : UInt64) (nonce : UInt32) :
    (siphashBlock ⟨v0, v1, v2, v3⟩ nonce.toUInt64).toBitVec =
      blockHash ⟨v0.toBitVec, v1.toBitVec, v2.toBitVec, v3.toBitVec⟩ nonce.toNat := by
  have d : ∀ b k, (digest ⟨v0, v1, v2, v3⟩ b k).toBitVec =
      chainDigest ⟨v0.toBitVec, v1.toBitVec, v2.toBitVec, v3.toBitVec⟩ b k := by
    intro b k
    rw [digest, sum64_bits, chain_bits]; rfl
  rw [siphash_block]
  unfold blockHash
  split
  · exact d _ _
  · rw [UInt64.toBitVec_xor, d, d]

/-! ### The keys and the exact edges -/

theorem ofLE_sum (b : Bytes) : ofLE b = ((List.range b.length).map fun j => (b.getD j 0).toNat * 256 ^ j).sum := by
  have scale : ∀ (l : List Nat) (f : Nat → Nat), (l.map fun j => 256 * f j).sum = 256 * (l.map f).sum := by
    intro l f
    induction l with
    | nil => rfl
    | cons x l ih => simp only [List.map_cons, List.sum_cons, ih, Nat.mul_add]
  induction b with
  | nil => rfl
  | cons x b ih =>
    rw [show ofLE (x :: b) = x.toNat + 256 * ofLE b from rfl, ih, List.length_cons, List.range_succ_eq_map,
      List.map_cons, List.sum_cons, List.map_map, ← scale]
    congr 1
    · simp
    · congr 1
      apply List.map_congr_left
      intro j _
      simp only [Function.comp_apply, List.getD_cons_succ, Nat.succ_eq_add_one, Nat.pow_succ]
      rw [Nat.mul_comm 256, Nat.mul_assoc]

theorem word_at (key : Bytes) (i : Nat) (h : 8 * i + 8 ≤ key.length) :
    ofLE ((key.drop (8 * i)).take 8) = leWord key i := by
  rw [ofLE_sum, show ((key.drop (8 * i)).take 8).length = 8 by rw [List.length_take, List.length_drop]; omega]
  unfold leWord
  congr 1
  apply List.map_congr_left
  intro j hj
  have hj := List.mem_range.1 hj
  congr 2
  simp only [List.getD_eq_getElem?_getD]
  rw [List.getElem?_take_of_lt (by omega), List.getElem?_drop]

theorem keys_bits (key : Bytes) (h : key.length = 32) : bits (keysOf key) = keyState key := by
  have w0 := word_at key 0 (by omega)
  have w1 := word_at key 1 (by omega)
  have w2 := word_at key 2 (by omega)
  have w3 := word_at key 3 (by omega)
  simp only [Nat.mul_zero, List.drop_zero, Nat.mul_one, Nat.reduceMul] at w0 w1 w2 w3
  simp only [bits, keysOf, keyState, w0, w1, w2, w3]
  trivial

/-- **C44, Cuckoo, exact.** The endpoints of the edge of a nonce: SipHash-2-4 keyed with the four little-endian
words of the hash of the key, of `2 * nonce` and `2 * nonce + 1`, reduced to half the number of vertices; `U` is
twice the first, `V` twice the second plus one. -/
theorem C44_cuckoo_edge (E : Env) (hlen : HashLen E) (key : Bytes) (sizeShift : UInt8)
    (h1 : 1 ≤ sizeShift.toNat) (h2 : sizeShift.toNat ≤ 63) (nonce : UInt32) :
    let e := (Cuckoo.new E key sizeShift).newEdge nonce
    let hash := fun n : Nat => (sipDigest (sipWord (keyState (E.blake2b key)) (BitVec.ofNat 64 n))).toNat
    e.U.toNat = 2 * (hash (2 * nonce.toNat) % 2 ^ (sizeShift.toNat - 1)) ∧
    e.V.toNat = 2 * (hash (2 * nonce.toNat + 1) % 2 ^ (sizeShift.toNat - 1)) + 1 := by
  intro e hash
  have hk := keys_bits (E.blake2b key) (hlen.length _)
  have hs : ∀ n : UInt64, (siphash24 (keysOf (E.blake2b key)) n).toNat = hash n.toNat := by
    intro n
    show (siphash24 (keysOf (E.blake2b key)) n).toBitVec.toNat = _
    rw [siphash24, sum64_bits, write64_bits, hk]
    show _ = (sipDigest (sipWord (keyState (E.blake2b key)) (BitVec.ofNat 64 n.toNat))).toNat
    congr 3
    exact (BitVec.ofNat_toNat _ n.toBitVec).symm ▸ (by simp)
  have hn : nonce.toUInt64.toNat = nonce.toNat := UInt32.toNat_toUInt64 nonce
  have hlt : nonce.toNat < 2 ^ 32 := UInt32.toNat_lt nonce
  have hm := mask_of E key sizeShift h1 h2
  have node : ∀ i : UInt64, i.toNat < 2 → ((Cuckoo.new E key sizeShift).newNode nonce.toUInt64 i).toNat =
      2 * (hash (2 * nonce.toNat + i.toNat) % 2 ^ (sizeShift.toNat - 1)) + i.toNat := by
    intro i hi
    have ha : (2 * nonce.toUInt64 + i).toNat = 2 * nonce.toNat + i.toNat := by
      rw [UInt64.toNat_add, UInt64.toNat_mul, hn]
      show ((2 * nonce.toNat) % 2 ^ 64 + i.toNat) % 2 ^ 64 = _
      omega
    unfold Cuckoo.newNode
    rw [node_value _ _ hi, UInt64.toNat_and, hm, Nat.and_two_pow_sub_one_eq_mod]
    show 2 * ((siphash24 (keysOf (E.blake2b key)) (2 * nonce.toUInt64 + i)).toNat % _ % _) + _ = _
    rw [hs, ha]
    have hp : (2 : Nat) ^ (sizeShift.toNat - 1) ≤ 2 ^ 63 := Nat.pow_le_pow_right (by decide) (by omega)
    have hq : 0 < 2 ^ (sizeShift.toNat - 1) := Nat.two_pow_pos _
    have := Nat.mod_lt (hash (2 * nonce.toNat + i.toNat)) hq
    rw [Nat.mod_eq_of_lt (show hash (2 * nonce.toNat + i.toNat) % 2 ^ (sizeShift.toNat - 1) < 2 ^ 63 by omega)]
  have n0 := node 0 (by decide)
  have n1 := node 1 (by decide)
  rw [show (0 : UInt64).toNat = 0 by decide, Nat.add_zero, Nat.add_zero] at n0
  rw [show (1 : UInt64).toNat = 1 by decide] at n1
  exact ⟨n0, n1⟩

/-- **C44, Cuckaroo, exact.** The endpoints are the two 32-bit halves of the block hash (keyed with the four
little-endian words of the hash of the key), reduced to `edgeBits` bits. -/
theorem C44_cuckaroo_edge (E : Env) (hlen : HashLen E) (key : Bytes) (edgeBits : UInt8) (hb : edgeBits.toNat ≤ 32)
    (nonce : UInt32) :
    let e := (newCuckaroo E key).newEdge nonce (shl1 edgeBits - 1)
    let hash := (blockHash (keyState (E.blake2b key)) nonce.toNat).toNat
    e.U.toNat = hash % 2 ^ edgeBits.toNat ∧ e.V.toNat = hash / 2 ^ 32 % 2 ^ edgeBits.toNat := by
  intro e hash
  have hk := keys_bits (E.blake2b key) (hlen.length _)
  have hs : (siphashBlock (keysOf (E.blake2b key)) nonce.toUInt64).toNat = hash := by
    have := C45_siphash_block (keysOf (E.blake2b key)).v0 (keysOf (E.blake2b key)).v1 (keysOf (E.blake2b key)).v2
      (keysOf (E.blake2b key)).v3 nonce
    show _ = (blockHash (keyState (E.blake2b key)) nonce.toNat).toNat
    rw [← hk]
    exact congrArg BitVec.toNat this
  have hm : (shl1 edgeBits - 1).toNat = 2 ^ edgeBits.toNat - 1 := by
    have hp : (2 : Nat) ^ edgeBits.toNat ≤ 2 ^ 32 := Nat.pow_le_pow_right (by decide) hb
    have hq : 0 < 2 ^ edgeBits.toNat := Nat.two_pow_pos _
    have hs : (shl1 edgeBits).toNat = 2 ^ edgeBits.toNat := by
      unfold shl1; rw [UInt64.toNat_ofNat', Nat.mod_eq_of_lt (by omega)]
    rw [UInt64.toNat_sub_of_le _ _ (by rw [UInt64.le_iff_toNat_le, hs]; exact hq), hs]; rfl
  show ((siphashBlock (keysOf (E.blake2b key)) nonce.toUInt64) &&& (shl1 edgeBits - 1)).toNat = _ ∧
    (((siphashBlock (keysOf (E.blake2b key)) nonce.toUInt64) >>> 32) &&& (shl1 edgeBits - 1)).toNat = _
  rw [UInt64.toNat_and, UInt64.toNat_and, UInt64.toNat_shiftRight, hm, hs, Nat.and_two_pow_sub_one_eq_mod,
    Nat.and_two_pow_sub_one_eq_mod, Nat.shiftRight_eq_div_pow]
  exact ⟨rfl, rfl⟩

/-- The specification on the test vectors of cuckoo/cuckoo_test.go:11-36. -/
example : sipDigest (sipWord ⟨1, 2, 3, 4⟩ 10) = 928382149599306901 ∧
    blockHash ⟨1, 2, 3, 4⟩ 10 = 1182162244994096396 ∧ blockHash ⟨1, 2, 3, 4⟩ 123 = 11303676240481718781 := by
  decide +kernel

/-- The words of a key of 32 bytes `0, 1, 2, …` -/
example : (keyState ((List.range 32).map UInt8.ofNat)).v1 = 0x0f0e0d0c0b0a0908 := by decide +kernel

end Gringo.Props
