import Verif.Proofs.Lifecycle
/-
C120: what a peer has accepted for sending does go out. The counterpart of C68, which says in which order.
-/
namespace Gringo.Props
open Gringo.Lifecycle Gringo.Spec

variable {M : Type} {frame : M → Bytes}

/-- The moves the write handler still has to make for the message it holds. -/
def toWrite (frame : M → Bytes) : Writer M → Nat
  | .got m => (frame m).length + 1
  | .writing _ q => q.length
  | _ => 0

theorem toWrite_le {s : Peer M} (h : OutInv frame s) (hv : Serving s)
    (h0 : toWrite frame s.writer = 0) : s.wire = s.accepted.flatMap frame := by
  obtain ⟨⟨done, cur, p, ha, hw, -, hh⟩, -⟩ := h
  rcases hv.2 with hx | ⟨m, hx⟩ | ⟨m, q, hx⟩
  · rw [hx] at hh
    obtain ⟨rfl, rfl⟩ := hh
    rw [hw, ha]; simp
  · rw [hx] at h0; simp [toWrite] at h0
  · rw [hx] at hh h0
    obtain ⟨rfl, hp⟩ := hh
    cases List.eq_nil_of_length_eq_zero h0
    rw [List.append_nil] at hp
    rw [hw, ha, hp]; simp

/-- What one step does while the peer keeps serving: nothing that was written is taken back, and either nothing new is
accepted and the handler gets ahead when it moves, or it had nothing left to write. -/
theorem serve_step {k : Kind} {s s' : Peer M} (hs : Step frame k s s') (hv : Serving s) (hv' : Serving s') :
    s.wire <+: s'.wire ∧ s.accepted <+: s'.accepted ∧
    ((s'.writer = s.writer ∧ s'.accepted = s.accepted) ∨
      (s'.accepted = s.accepted ∧ toWrite frame s'.writer < toWrite frame s.writer) ∨
      toWrite frame s.writer = 0) := by
  have keep : ∀ {d d' : Disc} {s0 : Peer M}, DiscStep d s d' s0 → s0.writer = s.writer ∧
      s0.accepted = s.accepted ∧ s0.wire = s.wire := by
    intro d d' s0 hd; cases hd <;> exact ⟨rfl, rfl, rfl⟩
  have stop : ∀ {w : Writer M}, s'.writer = w → w ≠ .select → (∀ m, w ≠ .got m) → (∀ m q, w ≠ .writing m q) → False := by
    intro w h1 h2 h3 h4
    rcases hv'.2 with h | ⟨m, h⟩ | ⟨m, q, h⟩
    · exact h2 (h1.symm.trans h)
    · exact h3 m (h1.symm.trans h)
    · exact h4 m q (h1.symm.trans h)
  cases hs with
  | start _ h1 h2 => rcases hv.2 with h | ⟨m, h⟩ | ⟨m, q, h⟩ <;> rw [h] at h2 <;> cases h2
  | closingStep _ s0 d d' h1 hd =>
    obtain ⟨k1, k2, k3⟩ := keep hd
    exact ⟨by simp only [k3]; exact List.prefix_refl _, by simp only [k2]; exact List.prefix_refl _, .inl ⟨k1, k2⟩⟩
  | readerLeave _ s0 d d' h1 hd =>
    obtain ⟨k1, k2, k3⟩ := keep hd
    exact ⟨by simp only [k3]; exact List.prefix_refl _, by simp only [k2]; exact List.prefix_refl _, .inl ⟨k1, k2⟩⟩
  | threadDisc _ s0 l r d d' h1 hd =>
    obtain ⟨k1, k2, k3⟩ := keep hd
    exact ⟨by simp only [k3]; exact List.prefix_refl _, by simp only [k2]; exact List.prefix_refl _, .inl ⟨k1, k2⟩⟩
  | writerLeave _ s0 d d' h1 hd => exact (stop rfl (by simp) (by simp) (by simp)).elim
  | replyTaken _ m h1 h2 =>
    exact ⟨List.prefix_refl _, List.prefix_append _ _, .inr (.inr (by rw [h2]; rfl))⟩
  | sendTaken _ l r m h1 h2 =>
    exact ⟨List.prefix_refl _, List.prefix_append _ _, .inr (.inr (by rw [h2]; rfl))⟩
  | gotDrop _ m h1 hf => exact (stop rfl (by simp) (by simp) (by simp)).elim
  | gotWrite _ m h1 hf =>
    exact ⟨List.prefix_refl _, List.prefix_refl _, .inr (.inl ⟨rfl, by rw [h1]; simp [toWrite]⟩)⟩
  | chunk _ m x q h1 hx hc =>
    refine ⟨List.prefix_append _ _, List.prefix_refl _, .inr (.inl ⟨rfl, ?_⟩)⟩
    rw [h1]
    have := List.length_pos_iff.2 hx
    simp only [toWrite, List.length_append]
    omega
  | writeFail _ m q h1 hq => exact (stop rfl (by simp) (by simp) (by simp)).elim
  | writeClosed _ m q h1 hq hc => exact (stop rfl (by simp) (by simp) (by simp)).elim
  | writeDone _ m h1 => exact ⟨List.prefix_refl _, List.prefix_refl _, .inr (.inr (by rw [h1]; rfl))⟩
  | selectQuit _ h1 hq => exact (stop rfl (by simp) (by simp) (by simp)).elim
  | writerDone _ h1 => exact (stop rfl (by simp) (by simp) (by simp)).elim
  | _ => exact ⟨List.prefix_refl _, List.prefix_refl _, .inl ⟨rfl, rfl⟩⟩

/-- **C120.** While nobody disconnects the peer and no write fails, every message that was accepted goes out: after at
most one more move of the write handler than the frame it holds has bytes, all accepted messages are on the
connection, whatever the remote peer and the other goroutines do in the meantime. -/
theorem C120_written (hne : ∀ m, frame m ≠ []) {s s' : Peer M} {n b : Nat} (h : Reachable frame s)
    (hr : Serve frame s s' n) (hb : ∀ m, (s.writer = .got m ∨ ∃ q, s.writer = .writing m q) → (frame m).length < b)
    (hn : b ≤ n) : s.accepted.flatMap frame <+: s'.wire := by
  have h0 : toWrite frame s.writer ≤ b := by
    obtain ⟨⟨done, cur, p, -, -, -, hh⟩, -⟩ := out_reachable hne h
    cases hw : s.writer with
    | got m => exact hb m (.inl hw)
    | writing m q =>
      rw [hw] at hh
      have h1 := hb m (.inr ⟨q, hw⟩)
      have h2 := congrArg List.length hh.2
      simp only [List.length_append] at h2
      simp only [toWrite]; omega
    | _ => exact Nat.zero_le _
  have main : ∀ {s' : Peer M} {n : Nat}, Serve frame s s' n → Serving s' ∧ Reachable frame s' ∧
      s.accepted <+: s'.accepted ∧
      (s.accepted.flatMap frame <+: s'.wire ∨
        (s'.accepted = s.accepted ∧ n + toWrite frame s'.writer ≤ toWrite frame s.writer)) := by
    intro s' n hr
    induction hr with
    | refl hv => exact ⟨hv, h, List.prefix_refl _, .inr ⟨rfl, by omega⟩⟩
    | @other s1 s2 n k _ hs hv hw ih =>
      obtain ⟨v, r, a, c⟩ := ih
      obtain ⟨k1, k2, k3⟩ := serve_step hs v hv
      refine ⟨hv, r.step hs, a.trans k2, ?_⟩
      rcases c with c | ⟨c1, c2⟩
      · exact .inl (c.trans k1)
      · by_cases hz : toWrite frame s1.writer = 0
        · have := toWrite_le (out_reachable hne r) v hz
          rw [c1] at this
          exact .inl (this ▸ k1)
        · rcases k3 with ⟨e1, e2⟩ | ⟨e1, e2⟩ | e
          · exact .inr ⟨e2.trans c1, by rw [e1]; exact c2⟩
          · exact .inr ⟨e1.trans c1, by omega⟩
          · exact absurd e hz
    | @write s1 s2 n k _ hs hv hw ih =>
      obtain ⟨v, r, a, c⟩ := ih
      obtain ⟨k1, k2, k3⟩ := serve_step hs v hv
      refine ⟨hv, r.step hs, a.trans k2, ?_⟩
      rcases c with c | ⟨c1, c2⟩
      · exact .inl (c.trans k1)
      · by_cases hz : toWrite frame s1.writer = 0
        · have := toWrite_le (out_reachable hne r) v hz
          rw [c1] at this
          exact .inl (this ▸ k1)
        · rcases k3 with ⟨e1, e2⟩ | ⟨e1, e2⟩ | e
          · exact absurd e1 hw
          · exact .inr ⟨e1.trans c1, by omega⟩
          · exact absurd e hz
  obtain ⟨v, r, -, c⟩ := main hr
  rcases c with c | ⟨c1, c2⟩
  · exact c
  · have := toWrite_le (out_reachable hne r) v (by omega)
    rw [this, c1]; exact List.prefix_refl _

/-- **C120, and it does come to that.** While the peer serves, the write handler can always move unless there is
nothing to do: it waits for the remote peer only when it holds a frame that is not completely written, any part of
which the connection may take next, and it waits for a message only when no call of `WriteMessage` is waiting. -/
theorem C120_moves {s : Peer M} (hv : Serving s) :
    (∃ s' k, Step frame k s s' ∧ k = .own ∧ Serving s' ∧ s'.writer ≠ s.writer) ∨
    (∃ m p q, s.writer = .writing m (p ++ q) ∧ p ≠ []) ∨ (s.writer = .select ∧ ¬ SendWaits s) := by
  obtain ⟨hf, hw | ⟨m, hw⟩ | ⟨m, q, hw⟩⟩ := hv
  · by_cases hx : SendWaits s
    · left
      rcases hx with ⟨m, hx⟩ | ⟨m, hx⟩
      · exact ⟨_, _, .replyTaken s m hx hw, rfl, ⟨hf, .inr (.inl ⟨m, rfl⟩)⟩, by rw [hw]; simp⟩
      · obtain ⟨l, r, hlr⟩ := List.append_of_mem hx
        exact ⟨_, _, .sendTaken s l r m hlr hw, rfl, ⟨hf, .inr (.inl ⟨m, rfl⟩)⟩, by rw [hw]; simp⟩
    · exact .inr (.inr ⟨hw, hx⟩)
  · exact .inl ⟨_, _, .gotWrite s m hw hf, rfl, ⟨hf, .inr (.inr ⟨m, _, rfl⟩)⟩, by rw [hw]; simp⟩
  · cases q with
    | nil => exact .inl ⟨_, _, .writeDone s m hw, rfl, ⟨hf, .inl rfl⟩, by rw [hw]; simp⟩
    | cons c q => exact .inr (.inl ⟨m, [c], q, hw, by simp⟩)

/-- **C120, the remote side.** Any part of the rest of a frame that the connection takes is written: nothing in the
process stands in the way, as long as the peer is not disconnected. -/
theorem C120_takes {s : Peer M} (h : Reachable frame s) (hf : s.flag = false) (m : M) (p q : Bytes)
    (hw : s.writer = .writing m (p ++ q)) (hp : p ≠ []) :
    ∃ s', Step frame .remote s s' ∧ s'.writer = .writing m q ∧ s'.wire = s.wire ++ p ∧ Serving s' := by
  have hc := (inv_reachable h).conn
  rw [hf] at hc
  have hc : s.conn = 0 := by simp only [Bool.toNat_false] at hc; omega
  exact ⟨_, .chunk s m p q hw hp hc, rfl, rfl, hf, .inr (.inr ⟨m, q, rfl⟩)⟩

/-- Two messages of two bytes: when the second one was taken, three moves later it is on the connection, although
another goroutine asked for a third one in the meantime. -/
example : ∃ s s' : Peer Nat, Reachable (fun m => [UInt8.ofNat m, 7]) s ∧ Serve (fun m => [UInt8.ofNat m, 7]) s s' 3 ∧
    s.accepted = [1, 2] ∧ s.writer = .got 2 ∧ s.wire = [1, 7] ∧ s'.wire = [1, 7, 2, 7] ∧
    s'.threads = [.sent 1 true, .sent 2 true, .send 3] := by
  let fr : Nat → Bytes := fun m => [UInt8.ofNat m, 7]
  have h1 : Reachable fr _ := .step (.new (M := Nat)) (.start _ rfl rfl)
  have h2 := Reachable.step h1 (.callSend _ 1)
  have h3 := Reachable.step h2 (.callSend _ 2)
  have h5 := Reachable.step h3 (.sendTaken _ [] [.send 2] 1 rfl rfl)
  have h6 := Reachable.step h5 (.gotWrite _ 1 rfl rfl)
  have h7 := Reachable.step h6 (.chunk _ 1 [1, 7] [] rfl (by simp) rfl)
  have h8 := Reachable.step h7 (.writeDone _ 1 rfl)
  have h9 := Reachable.step h8 (.sendTaken _ [.sent 1 true] [] 2 rfl rfl)
  have go : ∀ {s : Peer Nat}, Reachable fr s → Serving s → Serve fr s s 0 := fun _ h => .refl h
  have r0 := go h9 ⟨rfl, .inr (.inl ⟨2, rfl⟩)⟩
  have r1 := Serve.write r0 (.gotWrite _ 2 rfl rfl) ⟨rfl, .inr (.inr ⟨2, _, rfl⟩)⟩ (by simp)
  have r2 := Serve.write r1 (.chunk _ 2 [2] [7] rfl (by simp) rfl) ⟨rfl, .inr (.inr ⟨2, _, rfl⟩)⟩ (by simp [fr])
  have r3 := Serve.other r2 (.callSend _ 3) ⟨rfl, .inr (.inr ⟨2, _, rfl⟩)⟩ rfl
  have r4 := Serve.write r3 (.chunk _ 2 [7] [] rfl (by simp) rfl) ⟨rfl, .inr (.inr ⟨2, _, rfl⟩)⟩ (by simp)
  exact ⟨_, _, h9, r4, rfl, rfl, rfl, rfl, rfl⟩

end Gringo.Props
