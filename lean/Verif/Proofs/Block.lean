import Verif.Model.Block
import Verif.Proofs.Proof
import Verif.Proofs.Order
import Verif.Props.Pow
import Verif.Props.Elements
import Verif.Spec.Blocks
/-
Helper lemmas about the header, block, transaction, compact block and locator codecs.
-/
namespace Gringo

theorem wrapI64_of_range {x : Int} (h1 : -(2 ^ 63) ≤ x) (h2 : x < 2 ^ 63) : wrapI64 x = x := by
  unfold wrapI64; omega

theorem wrapI64_range (x : Int) : -(2 ^ 63) ≤ wrapI64 x ∧ wrapI64 x < 2 ^ 63 := by
  unfold wrapI64; omega

theorem Time.toUnix_range (t : Time) : -(2 ^ 63) ≤ t.toUnix ∧ t.toUnix < 2 ^ 63 := wrapI64_range _

theorem Time.toUnix_unix {ts : Int} (h1 : -(2 ^ 63) ≤ ts) (h2 : ts < 2 ^ 63) :
    (Time.unix ts).toUnix = ts := by
  unfold Time.toUnix Time.unix wrapI64 Time.unixToInternal; simp only; omega

theorem Time.unix_toUnix {t : Time} (hn : t.nsec = 0) (h1 : -(2 ^ 63) ≤ t.sec) (h2 : t.sec < 2 ^ 63) :
    Time.unix t.toUnix = t := by
  obtain ⟨s, n⟩ := t
  simp only at *
  subst hn
  simp only [Time.unix, Time.toUnix, wrapI64, Time.unixToInternal, Time.mk.injEq, and_true]
  omega

theorem beI64_length (x : Int) : (beI64 x).length = 8 := be_length _ _

theorem Rd.i64_beI64 {x : Int} (h1 : -(2 ^ 63) ≤ x) (h2 : x < 2 ^ 63) (r : Bytes) :
    Rd.i64 (beI64 x ++ r) = (.ok x, r) := by
  have h : wrapI64 (ofBE (beI64 x)) = x := by
    rw [beI64, ofBE_be]
    unfold wrapI64
    have : (256 : Nat) ^ 8 = 2 ^ 64 := by norm_num
    rw [this]
    omega
  simp [Rd.i64, Rd.readFull_append (beI64_length x) r, h]

theorem Proper.i64 : Proper Rd.i64 := (Proper.readFull 8).bind fun _ => Proper.pure _
theorem NeverCrashes.i64 : NeverCrashes Rd.i64 := (NeverCrashes.readFull 8).bind fun _ => .pure _
theorem TakesPrefix.i64 : TakesPrefix Rd.i64 := (TakesPrefix.readFull 8).bind fun _ => .pure _

/-! ### Proofs of work -/

theorem Proof.read_proper (E : Env) : Proper (Proof.read E) := by
  unfold Proof.read
  exact Proper.u8.bind fun _ => .ite (.fail _) <| (Proper.make _ _ _).bind fun _ =>
    (Proper.readFull _).bind fun _ => .pure _

theorem Proof.read_takes (E : Env) : TakesPrefix (Proof.read E) := by
  unfold Proof.read
  exact TakesPrefix.u8.bind fun _ => .ite (.fail _) <| (TakesPrefix.make _ _ _).bind fun _ =>
    (TakesPrefix.readFull _).bind fun _ => .pure _

theorem Proof.read_safe {E : Env} (hmem : 336 ≤ E.maxAlloc) : NeverCrashes (Proof.read E) := by
  unfold Proof.read
  refine NeverCrashes.u8.bind fun eb => .ite (fun _ => .fail _) fun h => ?_
  have heb : eb.toNat ≤ 64 := by
    have : ¬ eb > 64 := fun hh => h (.inr hh)
    have := UInt8.not_lt.1 this
    exact UInt8.le_iff_toNat_le.1 this
  refine (NeverCrashes.make ?_).bind fun _ => (NeverCrashes.readFull _).bind fun _ => .pure _
  unfold Proof.packedLen ProofSize; omega

/-! ### Headers -/

theorem BlockHeader.read_proper (E : Env) : Proper (BlockHeader.read E) := by
  unfold BlockHeader.read
  exact Proper.u16.bind fun _ => Proper.u64.bind fun _ => Proper.i64.bind fun _ =>
    (Proper.readFull _).bind fun _ => (Proper.readFull _).bind fun _ => (Proper.readFull _).bind fun _ =>
    (Proper.readFull _).bind fun _ => (Proper.readFull _).bind fun _ => (Proper.readFull _).bind fun _ =>
    Proper.u64.bind fun _ => Proper.u64.bind fun _ => Proper.u64.bind fun _ => Proper.u32.bind fun _ =>
    Proper.u64.bind fun _ => (Proof.read_proper E).bind fun _ => .pure _

theorem BlockHeader.read_takes (E : Env) : TakesPrefix (BlockHeader.read E) := by
  unfold BlockHeader.read
  exact TakesPrefix.u16.bind fun _ => TakesPrefix.u64.bind fun _ => TakesPrefix.i64.bind fun _ =>
    (TakesPrefix.readFull _).bind fun _ => (TakesPrefix.readFull _).bind fun _ =>
    (TakesPrefix.readFull _).bind fun _ => (TakesPrefix.readFull _).bind fun _ =>
    (TakesPrefix.readFull _).bind fun _ => (TakesPrefix.readFull _).bind fun _ =>
    TakesPrefix.u64.bind fun _ => TakesPrefix.u64.bind fun _ => TakesPrefix.u64.bind fun _ =>
    TakesPrefix.u32.bind fun _ => TakesPrefix.u64.bind fun _ => (Proof.read_takes E).bind fun _ => .pure _

theorem BlockHeader.read_safe {E : Env} (hmem : 336 ≤ E.maxAlloc) : NeverCrashes (BlockHeader.read E) := by
  unfold BlockHeader.read
  exact NeverCrashes.u16.bind fun _ => NeverCrashes.u64.bind fun _ => NeverCrashes.i64.bind fun _ =>
    (NeverCrashes.readFull _).bind fun _ => (NeverCrashes.readFull _).bind fun _ =>
    (NeverCrashes.readFull _).bind fun _ => (NeverCrashes.readFull _).bind fun _ =>
    (NeverCrashes.readFull _).bind fun _ => (NeverCrashes.readFull _).bind fun _ =>
    NeverCrashes.u64.bind fun _ => NeverCrashes.u64.bind fun _ => NeverCrashes.u64.bind fun _ =>
    NeverCrashes.u32.bind fun _ => NeverCrashes.u64.bind fun _ => (Proof.read_safe hmem).bind fun _ => .pure _

end Gringo
namespace Gringo

/-! ### Element lists -/

theorem Input.read_proper : Proper Input.read := by
  unfold Input.read
  exact Proper.u8.bind fun _ => (Proper.readFull _).bind fun _ => .pure _
theorem Input.read_safe : NeverCrashes Input.read := by
  unfold Input.read
  exact NeverCrashes.u8.bind fun _ => (NeverCrashes.readFull _).bind fun _ => .pure _
theorem Input.read_takes : TakesPrefix Input.read := by
  unfold Input.read
  exact TakesPrefix.u8.bind fun _ => (TakesPrefix.readFull _).bind fun _ => .pure _

theorem TxKernel.read_proper {E : Env} {P} (hE : PointCodec E P) : Proper (TxKernel.read E) := by
  unfold TxKernel.read
  exact Proper.u8.bind fun _ => Proper.u64.bind fun _ => Proper.u64.bind fun _ =>
    hE.proper.bind fun _ => (Proper.readFull _).bind fun _ => .pure _
theorem TxKernel.read_safe {E : Env} {P} (hE : PointCodec E P) : NeverCrashes (TxKernel.read E) := by
  unfold TxKernel.read
  exact NeverCrashes.u8.bind fun _ => NeverCrashes.u64.bind fun _ => NeverCrashes.u64.bind fun _ =>
    hE.safe.bind fun _ => (NeverCrashes.readFull _).bind fun _ => .pure _
theorem TxKernel.read_takes {E : Env} {P} (hE : PointCodec E P) : TakesPrefix (TxKernel.read E) := by
  unfold TxKernel.read
  exact TakesPrefix.u8.bind fun _ => TakesPrefix.u64.bind fun _ => TakesPrefix.u64.bind fun _ =>
    hE.takes.bind fun _ => (TakesPrefix.readFull _).bind fun _ => .pure _

theorem Output.readProof_safe {E : Env} {Q} (hQ : PrfCodec E Q) (n : Nat) :
    NeverCrashes (Output.readProof E n) := by
  intro s
  have h := (NeverCrashes.limit hQ.safe n) s
  unfold Output.readProof
  split
  · trivial
  · exact h
theorem Output.readProof_takes {E : Env} {Q} (hQ : PrfCodec E Q) (n : Nat) :
    TakesPrefix (Output.readProof E n) := by
  intro s
  have h := (TakesPrefix.limit hQ.takes n) s
  unfold Output.readProof
  split
  · rename_i heq; rw [heq] at h; exact h
  · exact h

theorem Output.read_safe {E : Env} {P Q} (hE : PointCodec E P) (hQ : PrfCodec E Q) :
    NeverCrashes (Output.read E) := by
  unfold Output.read
  exact NeverCrashes.u8.bind fun _ => hE.safe.bind fun _ => NeverCrashes.u64.bind fun _ =>
    .ite (fun _ => .fail _) fun _ => (Output.readProof_safe hQ _).bind fun _ => .pure _
theorem Output.read_takes {E : Env} {P Q} (hE : PointCodec E P) (hQ : PrfCodec E Q) :
    TakesPrefix (Output.read E) := by
  unfold Output.read
  exact TakesPrefix.u8.bind fun _ => hE.takes.bind fun _ => TakesPrefix.u64.bind fun _ =>
    .ite (.fail _) <| (Output.readProof_takes hQ _).bind fun _ => .pure _

theorem SortOK.sortedVersion {E : Env} (hS : SortOK E) {α : Type} (key : α → Bytes) (l : List α) :
    Spec.SortedVersion key l (E.sortBy (fun a b => bytesLt (key a) (key b)) l) := by
  refine ⟨hS.perm key l, ?_⟩
  have := (isSorted_iff_pairwise key _).1 (hS.sorted key l)
  exact this.imp (by intro a b h; simp [h])

theorem ofNat_le_max {n : Nat} (h : n ≤ 1000000) :
    (UInt64.ofNat n).toNat = n ∧ ¬ UInt64.ofNat n > UInt64.ofNat MaxListLen := by
  have h1 : (UInt64.ofNat n).toNat = n := by
    rw [UInt64.toNat_ofNat']; apply Nat.mod_eq_of_lt; omega
  refine ⟨h1, ?_⟩
  intro hh
  have := UInt64.lt_iff_toNat_lt.1 hh
  rw [h1] at this
  simp [MaxListLen] at this
  omega

theorem gt_max_iff (n : UInt64) : n > UInt64.ofNat MaxListLen ↔ 1000000 < n.toNat := by
  constructor
  · intro h
    have := UInt64.lt_iff_toNat_lt.1 h
    simpa [MaxListLen] using this
  · intro h
    apply UInt64.lt_iff_toNat_lt.2
    simpa [MaxListLen] using h

end Gringo
