import Verif.Model.Proof
import Verif.Proofs.Codec
/-
The bits of the packed proof of work.
-/
namespace Gringo.Proof

theorem bitAt_nil (k : Nat) : bitAt [] k = false := by simp [bitAt]

theorem bitAt_of_len {v : Bytes} {k : Nat} (h : v.length * 8 ≤ k) : bitAt v k = false := by
  unfold bitAt
  have : v.length ≤ k / 8 := by omega
  simp [List.getD_eq_getElem?_getD, List.getElem?_eq_none this]

theorem bitAt_replicate_zero (n k : Nat) : bitAt (List.replicate n 0) k = false := by
  unfold bitAt
  simp only [List.getD_eq_getElem?_getD, List.getElem?_replicate]
  split <;> simp

theorem uint8_ofNat_pow_toNat {m : Nat} (h : m < 8) : (UInt8.ofNat (2 ^ m)).toNat = 2 ^ m := by
  rw [UInt8.toNat_ofNat']
  apply Nat.mod_eq_of_lt
  exact Nat.pow_lt_pow_right (by omega) h

theorem setBit_ok {v : Bytes} {off : Nat} (h : off < v.length * 8) :
    ∃ v', setBit v off = .ok v' ∧ v'.length = v.length ∧
      ∀ k, bitAt v' k = (bitAt v k || decide (k = off)) := by
  have hi : off / 8 < v.length := by omega
  unfold setBit
  rw [List.getElem?_eq_getElem hi]
  refine ⟨_, rfl, by simp, ?_⟩
  intro k
  unfold bitAt
  simp only [List.getD_eq_getElem?_getD, List.getElem?_set]
  by_cases hk : off / 8 = k / 8
  · rw [if_pos hk, if_pos hi]
    have hk' : k / 8 < v.length := by omega
    simp only [Option.getD_some, UInt8.toNat_or, Nat.testBit_or]
    rw [uint8_ofNat_pow_toNat (Nat.mod_lt _ (by omega)), Nat.testBit_two_pow]
    simp only [← hk, List.getElem?_eq_getElem hi, Option.getD_some]
    congr 1
    simp only [decide_eq_decide]
    omega
  · rw [if_neg hk]
    have : k ≠ off := by rintro rfl; exact hk rfl
    simp [this]

theorem packBits_ok (w n : Nat) (nonce : UInt32) (l : List Nat) :
    ∀ (v : Bytes), (∀ b ∈ l, n * w + b < v.length * 8) →
    ∃ v', l.foldlM (fun v bit => if nonce.toNat.testBit bit then setBit v (n * w + bit) else .ok v) v
        = .ok v' ∧ v'.length = v.length ∧
      ∀ k, bitAt v' k = (bitAt v k || decide (∃ b ∈ l, k = n * w + b ∧ nonce.toNat.testBit b)) := by
  induction l with
  | nil => intro v _; exact ⟨v, rfl, rfl, by simp⟩
  | cons b l ih =>
    intro v h
    rw [List.foldlM_cons]
    by_cases hb : nonce.toNat.testBit b
    · rw [if_pos hb]
      obtain ⟨v1, h1, hl1, hb1⟩ := setBit_ok (h b (by simp))
      obtain ⟨v2, h2, hl2, hb2⟩ := ih v1 (by
        intro b' hb'; rw [hl1]; exact h b' (by simp [hb']))
      refine ⟨v2, by rw [h1]; exact h2, by omega, ?_⟩
      intro k
      rw [hb2, hb1, Bool.or_assoc, ← Bool.decide_or]
      congr 2
      apply propext
      simp only [List.mem_cons]
      constructor
      · rintro (rfl | ⟨b', hb', hk⟩)
        · exact ⟨b, .inl rfl, rfl, hb⟩
        · exact ⟨b', .inr hb', hk⟩
      · rintro ⟨b', rfl | hb', hk⟩
        · exact .inl hk.1
        · exact .inr ⟨b', hb', hk⟩
    · rw [if_neg hb]
      obtain ⟨v2, h2, hl2, hb2⟩ := ih v (by
        intro b' hb'; exact h b' (by simp [hb']))
      refine ⟨v2, h2, hl2, ?_⟩
      intro k
      rw [hb2]
      congr 2
      apply propext
      simp only [List.mem_cons]
      constructor
      · rintro ⟨b', hb', hk⟩
        exact ⟨b', .inr hb', hk⟩
      · rintro ⟨b', rfl | hb', hk⟩
        · exact absurd hk.2 hb
        · exact ⟨b', hb', hk⟩

theorem packNonce_ok {w n : Nat} {nonce : UInt32} {v : Bytes} (h : (n + 1) * w ≤ v.length * 8) :
    ∃ v', packNonce w n nonce v = .ok v' ∧ v'.length = v.length ∧
      ∀ k, bitAt v' k = (bitAt v k || decide (∃ b, b < w ∧ k = n * w + b ∧ nonce.toNat.testBit b)) := by
  have h' : n * w + w ≤ v.length * 8 := by rw [Nat.succ_mul] at h; exact h
  obtain ⟨v', h1, h2, h3⟩ := packBits_ok w n nonce (List.range w) v (by
    intro b hb; rw [List.mem_range] at hb; omega)
  refine ⟨v', h1, h2, ?_⟩
  simpa only [List.mem_range] using h3

open Classical in
theorem packFrom_ok (w : Nat) (l : List UInt32) :
    ∀ (n : Nat) (v : Bytes), (n + l.length) * w ≤ v.length * 8 →
    ∃ v', packFrom w n l v = .ok v' ∧ v'.length = v.length ∧
      ∀ k, bitAt v' k = (bitAt v k ||
        decide (∃ i b, b < w ∧ k = (n + i) * w + b ∧ ((l[i]?).any fun x => x.toNat.testBit b))) := by
  induction l with
  | nil => intro n v _; exact ⟨v, rfl, rfl, by simp⟩
  | cons x l ih =>
    intro n v h
    have hw : (n + 1) * w ≤ v.length * 8 :=
      Nat.le_trans (Nat.mul_le_mul_right w (by simp)) h
    obtain ⟨v1, h1, hl1, hb1⟩ := packNonce_ok (nonce := x) hw
    obtain ⟨v2, h2, hl2, hb2⟩ := ih (n + 1) v1 (by
      rw [hl1]; simp only [List.length_cons] at h
      rwa [show n + 1 + l.length = n + (l.length + 1) by omega])
    refine ⟨v2, by simp [packFrom, h1, h2], by omega, ?_⟩
    intro k
    rw [hb2, hb1, Bool.or_assoc, ← Bool.decide_or]
    congr 2
    apply propext
    constructor
    · rintro (⟨b, hb, hk, ht⟩ | ⟨i, b, hb, hk, ht⟩)
      · exact ⟨0, b, hb, by simpa using hk, by simpa using ht⟩
      · exact ⟨i + 1, b, hb, by rw [hk]; congr 2; omega, by simpa using ht⟩
    · rintro ⟨i, b, hb, hk, ht⟩
      cases i with
      | zero => exact .inl ⟨b, hb, by simpa using hk, by simpa using ht⟩
      | succ i => exact .inr ⟨i, b, hb, by rw [hk]; congr 2; omega, by simpa using ht⟩

theorem packedLen_bits (eb : UInt8) : eb.toNat * ProofSize ≤ packedLen eb * 8 := by
  unfold packedLen; omega

open Classical in
/-- The bits of the packed nonces: bit `b` of nonce `i` is bit `i * EdgeBits + b` of the stream. -/
theorem proofBytes_ok {p : Proof} (h : p.nonces.length ≤ ProofSize) :
    ∃ v, p.proofBytes = .ok v ∧ v.length = packedLen p.edgeBits ∧
      ∀ k, bitAt v k = true ↔ ∃ i b, b < p.edgeBits.toNat ∧ k = i * p.edgeBits.toNat + b ∧
        ((p.nonces[i]?).any fun x => x.toNat.testBit b) := by
  obtain ⟨v, h1, h2, h3⟩ := packFrom_ok p.edgeBits.toNat p.nonces 0
    (List.replicate (packedLen p.edgeBits) 0) (by
      have h1 := packedLen_bits p.edgeBits
      have h2 := Nat.mul_le_mul_right p.edgeBits.toNat h
      rw [Nat.mul_comm p.edgeBits.toNat] at h1
      simp only [List.length_replicate, Nat.zero_add]; omega)
  refine ⟨v, h1, by simpa using h2, ?_⟩
  intro k
  rw [h3, bitAt_replicate_zero, Bool.false_or, decide_eq_true_iff]
  simp only [Nat.zero_add]

theorem testBit_uint32_ofNat_pow (b j : Nat) :
    (UInt32.ofNat (2 ^ b)).toNat.testBit j = (decide (b < 32) && decide (b = j)) := by
  rw [UInt32.toNat_ofNat', show (2:Nat) ^ 32 = 2 ^ 32 from rfl, Nat.testBit_mod_two_pow, Nat.testBit_two_pow]
  by_cases h1 : b = j
  · subst h1; simp
  · simp [h1]

theorem unpackBits (w : Nat) (v : Bytes) (i : Nat) (l : List Nat) :
    ∀ (n : UInt32) (j : Nat),
    (l.foldl (fun nonce bit => if bitAt v (i * w + bit) then nonce ||| UInt32.ofNat (2 ^ bit) else nonce)
      n).toNat.testBit j = (n.toNat.testBit j || (decide (j ∈ l) && decide (j < 32) && bitAt v (i * w + j))) := by
  induction l with
  | nil => intro n j; simp
  | cons b l ih =>
    intro n j
    rw [List.foldl_cons, ih]
    by_cases hbit : bitAt v (i * w + b)
    · rw [if_pos hbit, UInt32.toNat_or, Nat.testBit_or, testBit_uint32_ofNat_pow]
      by_cases hj : j = b
      · subst hj; simp [hbit]
        cases n.toNat.testBit j <;> cases decide (j < 32) <;> simp
      · have : b ≠ j := fun h => hj h.symm
        simp [hj, this]
    · rw [if_neg hbit]
      by_cases hj : j = b
      · subst hj; simp [hbit]
      · simp [hj]

theorem unpackNonce_testBit (w : Nat) (v : Bytes) (i j : Nat) :
    (unpackNonce w v i).toNat.testBit j = (decide (j < w) && decide (j < 32) && bitAt v (i * w + j)) := by
  unfold unpackNonce
  rw [unpackBits]
  simp

/-- Every index the unpacking loop uses is inside the slice, so `bitAt`'s default is never used. -/
theorem unpack_index_in_range {eb : UInt8} {i j : Nat} (hi : i < ProofSize) (hj : j < eb.toNat) :
    (i * eb.toNat + j) / 8 < packedLen eb := by
  have h1 := packedLen_bits eb
  have h2 : (i + 1) * eb.toNat ≤ ProofSize * eb.toNat := Nat.mul_le_mul_right _ hi
  rw [Nat.succ_mul] at h2
  rw [Nat.mul_comm eb.toNat] at h1
  omega

theorem bytes_ext_bits {u v : Bytes} (hl : u.length = v.length)
    (h : ∀ k, k < u.length * 8 → bitAt u k = bitAt v k) : u = v := by
  apply List.ext_getElem hl
  intro i h1 h2
  apply UInt8.toNat_inj.1
  apply Nat.eq_of_testBit_eq
  intro j
  by_cases hj : j < 8
  · have := h (i * 8 + j) (by omega)
    unfold bitAt at this
    rw [show (i * 8 + j) / 8 = i by omega, show (i * 8 + j) % 8 = j by omega] at this
    simpa [List.getD_eq_getElem?_getD, List.getElem?_eq_getElem h1, List.getElem?_eq_getElem h2] using this
  · have e : ∀ x : UInt8, x.toNat.testBit j = false := by
      intro x
      apply Nat.testBit_lt_two_pow
      exact Nat.lt_of_lt_of_le x.toNat_lt (Nat.pow_le_pow_right (by omega) (by omega))
    rw [e, e]

/-- Position arithmetic: `i * w + b` with `b < w` determines `i` and `b`. -/
theorem pos_inj {w i b i' b' : Nat} (hb : b < w) (hb' : b' < w) (h : i * w + b = i' * w + b') :
    i = i' ∧ b = b' := by
  have h1 : (i * w + b) / w = i := by
    rw [Nat.mul_comm, Nat.mul_add_div (by omega), Nat.div_eq_of_lt hb]; omega
  have h2 : (i' * w + b') / w = i' := by
    rw [Nat.mul_comm, Nat.mul_add_div (by omega), Nat.div_eq_of_lt hb']; omega
  have hi : i = i' := by rw [← h1, h, h2]
  subst hi
  exact ⟨rfl, by omega⟩

theorem proofBytes_bit {p : Proof} {v : Bytes} (h : p.nonces.length ≤ ProofSize)
    (hv : p.proofBytes = .ok v) {i b : Nat} (hb : b < p.edgeBits.toNat) :
    bitAt v (i * p.edgeBits.toNat + b) = (p.nonces[i]?).any fun x => x.toNat.testBit b := by
  obtain ⟨v', h1, _, h3⟩ := proofBytes_ok h
  rw [h1] at hv
  cases hv
  apply Bool.eq_iff_iff.2
  rw [h3]
  constructor
  · rintro ⟨i', b', hb', he, ht⟩
    obtain ⟨rfl, rfl⟩ := pos_inj hb hb' he
    exact ht
  · intro ht
    exact ⟨i, b, hb, rfl, ht⟩

theorem read_cons {E : Env} (hmem : 336 ≤ E.maxAlloc) {eb : UInt8} (h1 : 1 ≤ eb.toNat)
    (h2 : eb.toNat ≤ 64) {v : Bytes} (hv : v.length = packedLen eb) :
    Reads (read E) (eb :: v)
      { edgeBits := eb, nonces := (List.range 42).map (unpackNonce eb.toNat v) } := by
  intro r
  have hne : ¬ (eb = 0 ∨ eb > 64) := by
    rintro (h | h)
    · subst h; simp at h1
    · have := UInt8.lt_iff_toNat_lt.1 h
      simp at this; omega
  have hl : packedLen eb * 1 ≤ E.maxAlloc := by
    unfold packedLen ProofSize; omega
  simp only [read, List.cons_append, Rd.bind_run, Rd.u8_cons, Rd.cont_ok]
  rw [if_neg hne]
  simp only [Rd.bind_run, Rd.make_ok hl, Rd.cont_ok, Rd.readFull_append hv, Rd.pure_run, ProofSize]

/-- What `read` accepts. -/
theorem read_ok {E : Env} {s : Bytes} {p : Proof} {r : Bytes}
    (h : read E s = (.ok p, r)) :
    ∃ v, s = p.edgeBits :: v ++ r ∧ 1 ≤ p.edgeBits.toNat ∧ p.edgeBits.toNat ≤ 64 ∧
      v.length = packedLen p.edgeBits ∧
      p.nonces = (List.range 42).map (unpackNonce p.edgeBits.toNat v) := by
  simp only [read, Rd.bind_run] at h
  obtain ⟨eb, s1, h1, h⟩ := cont_eq_ok h
  split at h
  · simp at h
  rename_i hne
  simp only [Rd.bind_run] at h
  obtain ⟨_, s2, h2, h⟩ := cont_eq_ok h
  obtain ⟨v, s3, h3, h⟩ := cont_eq_ok h
  simp only [Rd.pure_run, Prod.mk.injEq, Out.ok.injEq] at h
  obtain ⟨rfl, rfl⟩ := h
  have hs2 : s2 = s1 := by
    unfold Rd.make at h2; split at h2 <;> simp at h2; exact h2.symm
  subst hs2
  obtain ⟨rfl, hvl⟩ := Rd.readFull_ok h3
  have hs : s = eb :: (v ++ s3) := by
    cases s with
    | nil => simp [Rd.u8, Rd.readFull] at h1
    | cons x t => simp at h1; rw [h1.1, h1.2]
  refine ⟨v, by simpa using hs, ?_, ?_, hvl, rfl⟩
  · by_contra hc
    exact hne (.inl (UInt8.toNat_inj.1 (by simp at hc ⊢; omega)))
  · by_contra hc
    exact hne (.inr (UInt8.lt_iff_toNat_lt.2 (by simp at hc ⊢; omega)))

theorem unpack_eq_of_bits {w : Nat} {v : Bytes} {i : Nat} {x : UInt32} (hx : x.toNat < 2 ^ w)
    (h : ∀ b, b < w → bitAt v (i * w + b) = x.toNat.testBit b) :
    unpackNonce w v i = x := by
  apply UInt32.toNat_inj.1
  apply Nat.eq_of_testBit_eq
  intro j
  rw [unpackNonce_testBit]
  by_cases hj : j < w
  · by_cases h32 : j < 32
    · simp [hj, h32, h j hj]
    · have : x.toNat.testBit j = false := Nat.testBit_lt_two_pow
        (Nat.lt_of_lt_of_le x.toNat_lt (Nat.pow_le_pow_right (by omega) (by omega)))
      simp [h32, this]
  · have : x.toNat.testBit j = false := Nat.testBit_lt_two_pow
      (Nat.lt_of_lt_of_le hx (Nat.pow_le_pow_right (by omega) (by omega)))
    simp [hj, this]

/-- Flip one bit of the stream. -/
def flipBit (v : Bytes) (k : Nat) : Bytes :=
  v.set (k / 8) (v.getD (k / 8) 0 ^^^ UInt8.ofNat (2 ^ (k % 8)))

theorem bitAt_flipBit {v : Bytes} {k : Nat} (h : k < v.length * 8) (j : Nat) :
    bitAt (flipBit v k) j = (bitAt v j ^^ decide (j = k)) := by
  have hi : k / 8 < v.length := by omega
  unfold bitAt flipBit
  simp only [List.getD_eq_getElem?_getD, List.getElem?_set]
  by_cases hk : k / 8 = j / 8
  · rw [if_pos hk, if_pos hi]
    simp only [Option.getD_some, UInt8.toNat_xor, Nat.testBit_xor]
    rw [uint8_ofNat_pow_toNat (Nat.mod_lt _ (by omega)), Nat.testBit_two_pow]
    simp only [← hk, List.getElem?_eq_getElem hi, Option.getD_some]
    congr 1
    simp only [decide_eq_decide]
    omega
  · rw [if_neg hk]
    have : j ≠ k := by rintro rfl; exact hk rfl
    simp [this]

theorem packNonce_not_fatal (w n : Nat) (x : UInt32) (v : Bytes) (e : String) : packNonce w n x v ≠ .fatal e := by
  unfold packNonce
  generalize List.range w = l
  induction l generalizing v with
  | nil => simp [pure]
  | cons b l ih =>
    rw [List.foldlM_cons]
    split
    · have hs : ∀ e, setBit v (n * w + b) ≠ .fatal e := by
        intro e
        unfold setBit
        cases v[(n * w + b) / 8]? <;> simp
      cases h : setBit v (n * w + b) with
      | ok v' => simpa using ih _
      | err e => simp
      | panic e => simp
      | fatal e' => exact absurd h (hs e')
    · simpa using ih _

theorem packFrom_not_fatal (w n : Nat) (l : List UInt32) (v : Bytes) (e : String) : packFrom w n l v ≠ .fatal e := by
  induction l generalizing n v with
  | nil => simp [packFrom]
  | cons x l ih =>
    rw [packFrom]
    cases h : packNonce w n x v with
    | ok v' => simpa using ih _ _
    | err e => simp
    | panic e => simp
    | fatal e' => exact (packNonce_not_fatal _ _ _ _ _ h).elim

theorem proofBytes_not_fatal (p : Proof) (e : String) : p.proofBytes ≠ .fatal e := packFrom_not_fatal _ _ _ _ _

end Gringo.Proof
