import Verif.Model.Writer
import Verif.Props.Delivery
/-
C100: a connection that breaks at any byte.
-/
namespace Gringo.Props
open Gringo.P2P Gringo.Spec BufWriter

/-- After `req` was handed to a buffered writer on a connection that takes `k` bytes. -/
def Handed (k : Nat) (w : BufWriter) (req : Bytes) : Prop :=
  (w.failed = false ∧ w.got ++ w.buf = req ∧ w.left + w.got.length = k ∧ w.buf.length ≤ 4096) ∨
  (w.failed = true ∧ w.got = req.take k ∧ k < req.length)

theorem handed_new (k : Nat) : Handed k (BufWriter.new k) [] := .inl ⟨rfl, rfl, rfl, by simp [BufWriter.new]⟩

theorem handed_fail {k : Nat} {w : BufWriter} {req : Bytes} (p : Bytes) (h : Handed k w req) (hf : w.failed = true) :
    Handed k w (req ++ p) := by
  rcases h with ⟨h, -⟩ | ⟨-, h1, h2⟩
  · rw [h] at hf; cases hf
  · refine .inr ⟨hf, ?_, by rw [List.length_append]; omega⟩
    rw [h1, List.take_append_of_le_length (by omega)]

theorem direct_handed {k : Nat} {w : BufWriter} {req p : Bytes} (h : Handed k w req) (hf : w.failed = false)
    (hb : w.buf = []) : Handed k (w.direct p).1 (req ++ p) ∧
      ((w.direct p).1.failed = false → (w.direct p).2 = p.length ∧ (w.direct p).1.buf = []) := by
  rcases h with ⟨-, h1, h2, -⟩ | ⟨h, -⟩
  · rw [hb, List.append_nil] at h1
    subst h1
    by_cases hl : w.left < p.length
    · refine ⟨.inr ⟨by simp [direct, hl], ?_, ?_⟩, by simp [direct, hl]⟩
      · rw [List.take_append, List.take_of_length_le (by omega)]
        simp only [direct]
        rw [show min p.length w.left = k - w.got.length by omega]
      · rw [List.length_append]; omega
    · refine ⟨.inl ⟨by simp [direct, hl], ?_, ?_, ?_⟩, fun _ => ⟨by simp only [direct]; omega, by simp [direct, hb]⟩⟩
      · simp only [direct, hb, List.append_nil]
        rw [show min p.length w.left = p.length by omega, List.take_length]
      · simp only [direct, List.length_append, List.length_take]
        omega
      · simp [direct, hb]
  · rw [h] at hf; cases hf

theorem flush_handed {k : Nat} {w : BufWriter} {req : Bytes} (h : Handed k w req) :
    Handed k w.flush req ∧ (w.flush.failed = false → w.flush.buf = []) := by
  unfold flush
  split
  · rename_i hf
    exact ⟨h, by rw [hf]; intro h; cases h⟩
  · rename_i hf
    have hf' : w.failed = false := by simpa using hf
    split
    · rename_i hb
      exact ⟨h, fun _ => List.length_eq_zero_iff.1 hb⟩
    · rcases h with ⟨-, h1, h2, h3⟩ | ⟨h, -⟩
      · subst h1
        by_cases hl : w.left < w.buf.length
        · refine ⟨.inr ⟨by simp [direct, hl], ?_, ?_⟩, by simp [direct, hl]⟩
          · rw [List.take_append, List.take_of_length_le (by omega)]
            simp only [direct]
            rw [show min w.buf.length w.left = k - w.got.length by omega]
          · rw [List.length_append]; omega
        · have hm : min w.buf.length w.left = w.buf.length := by omega
          refine ⟨.inl ⟨by simp [direct, hl], ?_, ?_, ?_⟩, fun _ => ?_⟩
          · simp only [direct, hm, List.take_length, List.drop_length, List.append_nil]
          · simp only [direct, hm, List.length_append, List.take_length]
            omega
          · simp [direct, hm]
          · simp [direct, hm]
      · rw [h] at hf'; cases hf'

theorem loop_done {k fuel : Nat} {w : BufWriter} {req p : Bytes} {nn : Nat} (h : Handed k w req)
    (hp : w.failed = true ∨ p.length ≤ w.available) :
    Handed k (writeLoop (fuel + 1) w p nn).1 (req ++ p) ∧
      ((writeLoop (fuel + 1) w p nn).1.failed = false → (writeLoop (fuel + 1) w p nn).2 = nn + p.length) := by
  unfold writeLoop
  by_cases hf : w.failed = true
  · rw [if_neg (by simp [hf]), if_pos hf]
    exact ⟨handed_fail p h hf, by simp [hf]⟩
  · have hp' : p.length ≤ w.available := hp.resolve_left hf
    rw [if_neg (by omega), if_neg hf]
    refine ⟨?_, fun _ => rfl⟩
    rcases h with ⟨h0, h1, h2, h3⟩ | ⟨h0, -⟩
    · refine .inl ⟨h0, ?_, h2, ?_⟩
      · simp only [← h1, List.append_assoc]
      · simp only [available, size] at hp'
        simp only [List.length_append]
        omega
    · exact absurd h0 hf

theorem loop_empty {k fuel : Nat} {w : BufWriter} {req p : Bytes} {nn : Nat} (h : Handed k w req)
    (hb : w.failed = false → w.buf = []) :
    Handed k (writeLoop (fuel + 2) w p nn).1 (req ++ p) ∧
      ((writeLoop (fuel + 2) w p nn).1.failed = false → (writeLoop (fuel + 2) w p nn).2 = nn + p.length) := by
  by_cases hc : w.failed = true ∨ p.length ≤ w.available
  · exact loop_done h hc
  · have hf : w.failed = false := by
      cases hw : w.failed
      · rfl
      · exact absurd (.inl hw) hc
    have hp : p.length > w.available := by
      have := fun q => hc (.inr q)
      omega
    have hb' := hb hf
    obtain ⟨hd, hn⟩ := direct_handed (p := p) h hf hb'
    have e : writeLoop (fuel + 2) w p nn =
        writeLoop (fuel + 1) (w.direct p).1 (p.drop (w.direct p).2) (nn + (w.direct p).2) := by
      rw [writeLoop, if_pos ⟨hp, hf⟩, if_pos (by rw [hb']; rfl)]
    rw [e]
    cases hr : (w.direct p).1.failed
    · obtain ⟨hn1, hn2⟩ := hn hr
      have := loop_done (fuel := fuel) (p := p.drop (w.direct p).2) (nn := nn + (w.direct p).2) hd
        (.inr (by rw [hn1, List.drop_length]; simp))
      rw [hn1, List.drop_length, List.append_nil] at this
      rw [hn1, List.drop_length]
      exact ⟨this.1, fun q => by simpa using this.2 q⟩
    · unfold writeLoop
      rw [if_neg (by simp [hr]), if_pos hr]
      exact ⟨hd, by simp [hr]⟩

/-- One call of `Write`: what was handed over is lengthened by `p`. -/
theorem write_handed {k : Nat} {w : BufWriter} {req : Bytes} (p : Bytes) (h : Handed k w req) :
    Handed k (w.write p).1 (req ++ p) ∧ ((w.write p).1.failed = false → (w.write p).2 = p.length) := by
  unfold write
  by_cases hc : w.failed = true ∨ p.length ≤ w.available
  · simpa using loop_done (fuel := 2) (nn := 0) h hc
  by_cases hb : w.buf.length = 0
  · simpa using loop_empty (fuel := 1) (nn := 0) (p := p) h (fun _ => List.length_eq_zero_iff.1 hb)
  · have hf : w.failed = false := by
      cases hw : w.failed
      · rfl
      · exact absurd (.inl hw) hc
    have hp : p.length > w.available := by
      have := fun q => hc (.inr q)
      omega
    unfold writeLoop
    rw [if_pos ⟨hp, hf⟩, if_neg hb]
    have hh : Handed k ({ w with buf := w.buf ++ p.take w.available } : BufWriter) (req ++ p.take w.available) := by
      rcases h with ⟨h0, h1, h2, h3⟩ | ⟨h0, -⟩
      · refine .inl ⟨h0, ?_, h2, ?_⟩
        · simp only [← h1, List.append_assoc]
        · simp only [List.length_append, List.length_take, available, size]
          omega
      · rw [h0] at hf; cases hf
    obtain ⟨hfl, hfe⟩ := flush_handed hh
    have := loop_empty (fuel := 0) (p := p.drop w.available) (nn := 0 + w.available) hfl hfe
    rw [List.append_assoc, List.take_append_drop] at this
    refine ⟨this.1, fun q => ?_⟩
    rw [this.2 q, List.length_drop]
    omega

theorem loop_done_eq {fuel fuel' : Nat} {w : BufWriter} {p : Bytes} {nn : Nat}
    (hp : w.failed = true ∨ p.length ≤ w.available) :
    writeLoop (fuel + 1) w p nn = writeLoop (fuel' + 1) w p nn := by
  have hn : ¬ (p.length > w.available ∧ w.failed = false) := by
    rintro ⟨h1, h2⟩
    rcases hp with h | h
    · rw [h2] at h; cases h
    · omega
  rw [writeLoop, writeLoop, if_neg hn, if_neg hn]

theorem loop_empty_eq {k fuel fuel' : Nat} {w : BufWriter} {req p : Bytes} {nn : Nat} (h : Handed k w req)
    (hb : w.failed = false → w.buf = []) :
    writeLoop (fuel + 2) w p nn = writeLoop (fuel' + 2) w p nn := by
  by_cases hc : w.failed = true ∨ p.length ≤ w.available
  · exact loop_done_eq hc
  · have hf : w.failed = false := by
      cases hw : w.failed
      · rfl
      · exact absurd (.inl hw) hc
    have hp : p.length > w.available := by
      have := fun q => hc (.inr q)
      omega
    obtain ⟨hd, hn⟩ := direct_handed (p := p) h hf (hb hf)
    have e : ∀ fuel, writeLoop (fuel + 2) w p nn =
        writeLoop (fuel + 1) (w.direct p).1 (p.drop (w.direct p).2) (nn + (w.direct p).2) := by
      intro fuel
      rw [writeLoop, if_pos ⟨hp, hf⟩, if_pos (by rw [hb hf]; rfl)]
    rw [e, e]
    refine loop_done_eq ?_
    cases hr : (w.direct p).1.failed
    · right
      rw [(hn hr).1, List.drop_length]
      simp
    · exact .inl rfl

/-- The loop of `Write` never takes more than three rounds: with more fuel the result is the same. -/
theorem writeLoop_enough {k : Nat} {w : BufWriter} {req : Bytes} (p : Bytes) (h : Handed k w req) (m : Nat) :
    writeLoop (m + 3) w p 0 = w.write p := by
  unfold write
  by_cases hc : w.failed = true ∨ p.length ≤ w.available
  · exact loop_done_eq hc
  by_cases hb : w.buf.length = 0
  · exact loop_empty_eq h (fun _ => List.length_eq_zero_iff.1 hb)
  · have hf : w.failed = false := by
      cases hw : w.failed
      · rfl
      · exact absurd (.inl hw) hc
    have hp : p.length > w.available := by
      have := fun q => hc (.inr q)
      omega
    have e : ∀ m, writeLoop (m + 3) w p 0 =
        writeLoop (m + 2) ({ w with buf := w.buf ++ p.take w.available } : BufWriter).flush (p.drop w.available)
          (0 + w.available) := by
      intro m
      rw [writeLoop, if_pos ⟨hp, hf⟩, if_neg hb]
    show _ = writeLoop (0 + 3) w p 0
    rw [e, e]
    have hh : Handed k ({ w with buf := w.buf ++ p.take w.available } : BufWriter) (req ++ p.take w.available) := by
      rcases h with ⟨h0, h1, h2, h3⟩ | ⟨h0, -⟩
      · refine .inl ⟨h0, ?_, h2, ?_⟩
        · simp only [← h1, List.append_assoc]
        · simp only [List.length_append, List.length_take, available, size]
          omega
      · rw [h0] at hf; cases hf
    obtain ⟨hfl, hfe⟩ := flush_handed hh
    exact loop_empty_eq (fuel := m) (fuel' := 0) hfl hfe

theorem header_handed (k : Nat) (h : Header) : Handed k (h.writeTo (BufWriter.new k)) h.bytes := by
  have h1 := (write_handed h.magic (handed_new k)).1
  have e : h.bytes = [] ++ h.magic ++ [h.type] ++ be64 h.len := by simp [Header.bytes]
  rw [e]
  unfold Header.writeTo
  simp only
  split
  · rename_i hf
    exact handed_fail _ (handed_fail _ h1 hf) hf
  · have h2 := (write_handed [h.type] h1).1
    split
    · rename_i hf
      exact handed_fail _ h2 hf
    · exact (write_handed (be64 h.len) h2).1

/-- **C100, one message.** On a connection that takes `k` bytes and then fails, `WriteMessage` hands over exactly the
first `k` bytes of the frame, whatever the sizes of the buffer, of the body and of `k`. It reports success
exactly if the whole frame was taken, and then returns its length, all of which has left the buffer. -/
theorem C100_write (k : Nat) (type : UInt8) (data : Bytes) (h : data.length < 2 ^ 64) :
    let r := writeMessageTo k type data
    r.got = (frameBytes type data).take k ∧
    (r.ok = true ↔ (frameBytes type data).length ≤ k) ∧
    (r.ok = true → r.count = UInt64.ofNat (frameBytes type data).length ∧
      r.left = k - (frameBytes type data).length) := by
  intro r
  have hfr : frameBytes type data = (Header.mk MagicCode type (UInt64.ofNat data.length)).bytes ++ data :=
    (write_eq_frame type data h).symm
  have hlen := frame_length type data
  have hh := header_handed k (Header.mk MagicCode type (UInt64.ofNat data.length))
  obtain ⟨hw, hn⟩ := write_handed data hh
  rw [← hfr] at hw
  obtain ⟨hfl, hfe⟩ := flush_handed hw
  show (writeMessageTo k type data).got = _ ∧ _
  have hr : r = writeMessageTo k type data := rfl
  rw [hr]
  clear hr r
  unfold writeMessageTo
  simp only
  generalize (Header.mk MagicCode type (UInt64.ofNat data.length)).writeTo (BufWriter.new k) = w at *
  have hcount : UInt64.ofNat data.length + HeaderLen = UInt64.ofNat (frameBytes type data).length := by
    rw [hlen, Nat.add_comm, UInt64.ofNat_add]; rfl
  split
  · rename_i hf
    rcases handed_fail data hh hf with ⟨h0, -⟩ | ⟨-, h1, h2⟩
    · rw [h0] at hf; cases hf
    · rw [← hfr] at h1 h2
      exact ⟨h1, ⟨fun q => (nomatch q), fun q => absurd q (by omega)⟩, fun q => (nomatch q)⟩
  · split
    · rename_i hf
      rcases hw with ⟨h0, -⟩ | ⟨-, h1, h2⟩
      · rw [h0] at hf; cases hf
      · exact ⟨h1, ⟨fun q => (nomatch q), fun q => absurd q (by omega)⟩, fun q => (nomatch q)⟩
    · rename_i hf
      have hf' : (w.write data).1.failed = false := by simpa using hf
      rw [hn hf']
      rcases hfl with ⟨h0, h1, h2, -⟩ | ⟨h0, h1, h2⟩
      · rw [hfe h0, List.append_nil] at h1
        rw [h1] at h2
        refine ⟨?_, ⟨fun _ => by omega, fun _ => by simp [h0]⟩, fun _ => ⟨hcount, by simp only; omega⟩⟩
        simp only
        rw [h1, List.take_of_length_le (by omega)]
      · refine ⟨h1, ⟨fun q => ?_, fun q => by omega⟩, fun q => ?_⟩
        · simp [h0] at q
        · simp [h0] at q

/-- `j` is the number of frames that fit into `k` bytes: the first `j` do, one more does not. -/
def FramesWithin (k : Nat) (frames : List Bytes) (j : Nat) : Prop :=
  j ≤ frames.length ∧ (frames.take j).flatten.length ≤ k ∧
    (j < frames.length → k < (frames.take (j + 1)).flatten.length)

theorem framesWithin_unique {k : Nat} {frames : List Bytes} {i j : Nat} (hi : FramesWithin k frames i)
    (hj : FramesWithin k frames j) : i = j := by
  have mono : ∀ {a b : Nat}, a ≤ b → (frames.take a).flatten.length ≤ (frames.take b).flatten.length := by
    intro a b hab
    have e : frames.take a = (frames.take b).take a := by rw [List.take_take, Nat.min_eq_left hab]
    have e2 : (frames.take b).flatten = ((frames.take b).take a).flatten ++ ((frames.take b).drop a).flatten := by
      rw [← List.flatten_append, List.take_append_drop]
    rw [e, e2, List.length_append]
    omega
  rcases Nat.lt_trichotomy i j with h | h | h
  · have h1 := hi.2.2 (by have := hj.1; omega)
    have h2 := mono (a := i + 1) (b := j) (by omega)
    have := hj.2.1
    omega
  · exact h
  · have h1 := hj.2.2 (by have := hi.1; omega)
    have h2 := mono (a := j + 1) (b := i) (by omega)
    have := hi.2.1
    omega

/-- **C100, the write handler.** A connection that takes `k` bytes and then fails gets exactly the first `k` bytes
of the frames of the messages in the order they were taken off the queue; the counter of bytes sent is increased by
the lengths of the frames that were taken completely, and by nothing else. -/
theorem C100_stream : ∀ (ms : List (UInt8 × Bytes)) (k : Nat), (∀ m ∈ ms, m.2.length < 2 ^ 64) →
    let frames := ms.map fun m => frameBytes m.1 m.2
    (writeAll k ms).1 = frames.flatten.take k ∧
    ∃ j, FramesWithin k frames j ∧ (writeAll k ms).2 = UInt64.ofNat (frames.take j).flatten.length
  | [], k, _ => by
    refine ⟨by simp [writeAll], 0, ⟨Nat.le_refl _, by simp, fun h => by simp at h⟩, rfl⟩
  | m :: ms, k, h => by
    intro frames
    obtain ⟨h1, h2, h3⟩ := C100_write k m.1 m.2 (h m (List.mem_cons_self ..))
    have hf : frames = frameBytes m.1 m.2 :: ms.map fun m => frameBytes m.1 m.2 := rfl
    by_cases hk : (frameBytes m.1 m.2).length ≤ k
    · have hok := h2.2 hk
      obtain ⟨h3, h4⟩ := h3 hok
      obtain ⟨g1, j, ⟨gj, g2, g3⟩, g4⟩ := C100_stream ms (k - (frameBytes m.1 m.2).length)
        (fun x hx => h x (List.mem_cons_of_mem _ hx))
      have e : writeAll k (m :: ms) = ((writeMessageTo k m.1 m.2).got ++ (writeAll (k - (frameBytes m.1 m.2).length) ms).1,
          (writeMessageTo k m.1 m.2).count + (writeAll (k - (frameBytes m.1 m.2).length) ms).2) := by
        rw [writeAll]
        simp only [hok, if_true, h4]
      rw [e]
      refine ⟨?_, j + 1, ⟨?_, ?_, ?_⟩, ?_⟩
      · simp only [hf, h1, g1, List.flatten_cons]
        rw [List.take_append]
      · simp only [hf, List.length_cons]; omega
      · simp only [hf, List.take_succ_cons, List.flatten_cons, List.length_append]; omega
      · intro hj
        simp only [hf, List.length_cons] at hj
        have := g3 (by omega)
        simp only [hf, List.take_succ_cons, List.flatten_cons, List.length_append] at this ⊢
        omega
      · simp only [hf, List.take_succ_cons, List.flatten_cons, List.length_append]
        rw [h3, g4, UInt64.ofNat_add]
    · have hok : (writeMessageTo k m.1 m.2).ok = false := by
        cases hq : (writeMessageTo k m.1 m.2).ok
        · rfl
        · exact absurd (h2.1 hq) hk
      have e : writeAll k (m :: ms) = ((writeMessageTo k m.1 m.2).got, 0) := by
        rw [writeAll]
        simp [hok]
      rw [e]
      refine ⟨?_, 0, ⟨Nat.zero_le _, by simp, fun _ => ?_⟩, rfl⟩
      · simp only [hf, h1, List.flatten_cons]
        rw [List.take_append_of_le_length (by omega)]
      · simp only [hf, List.take_succ_cons, List.take_zero, List.flatten_cons, List.flatten_nil, List.append_nil]
        omega

/-- What is left of a frame that was cut is a fault. -/
theorem cut_fault (E : Env) (t : UInt8) (body : Bytes) (k : Nat) (h : k < (frameBytes t body).length)
    (h64 : body.length < 2 ^ 64) : Fault E ((frameBytes t body).take k) := by
  by_cases hk : k < 11
  · exact .ends _ (by rw [List.length_take]; omega)
  · have hl : ([0x54, 0x34, t] ++ be 8 body.length : Bytes).length = 11 := by simp [be_length]
    have e : (frameBytes t body).take k = [0x54, 0x34, t] ++ be 8 body.length ++ body.take (k - 11) := by
      rw [frameBytes, List.take_append, List.take_of_length_le (by omega), hl]
    rw [e]
    rw [frame_length] at h
    exact .truncated t body.length _ (by rw [List.length_take]; omega) h64

/-- **C100, both ends.** However many bytes a connection takes before it breaks, and whatever well-formed messages
are being sent over it: the remote read loop hands on exactly the messages whose frames got through completely, none
of the others and no other message; the bytes the receiver counts are the bytes the sender counts; and the read loop
has ended by itself. -/
theorem C100_both_ends (E : Env) (hmem : 20000000 ≤ E.maxAlloc) (fs : List (GoodFrame E)) (k : Nat) :
    ∃ j, FramesWithin k (fs.map fun f => frameBytes f.type f.body) j ∧
      let sent := writeAll k (fs.map fun f => (f.type, f.body))
      (readHandler E sent.1).dispatched = messagesOf (fs.take j) ∧
      (readHandler E sent.1).received = sent.2 ∧
      (readHandler E sent.1).ending ≠ .flagged := by
  have hmap : (fs.map fun f => (f.type, f.body)).map (fun m : UInt8 × Bytes => frameBytes m.1 m.2) =
      fs.map fun f => frameBytes f.type f.body := by simp
  obtain ⟨h1, j, hj, h2⟩ := C100_stream (fs.map fun f => (f.type, f.body)) k (by
    intro m hm
    obtain ⟨f, -, rfl⟩ := List.mem_map.1 hm
    have := f.size
    show f.body.length < _
    omega)
  rw [hmap] at h1 hj h2
  refine ⟨j, hj, ?_⟩
  have hs : ∀ l : List (GoodFrame E), (l.map fun f => frameBytes f.type f.body).flatten = streamOf l := by
    intro l; rw [streamOf, List.flatMap_def]
  have hfault : ∃ rest, (writeAll k (fs.map fun f => (f.type, f.body))).1 = streamOf (fs.take j) ++ rest ∧
      Fault E rest := by
    obtain ⟨hj1, hj2, hj3⟩ := hj
    rw [← List.map_take, hs] at hj2
    rw [h1, hs]
    by_cases hlt : j < fs.length
    · have hj3 := hj3 (by simpa using hlt)
      rw [← List.map_take, hs] at hj3
      have e1 : fs = fs.take j ++ fs[j] :: fs.drop (j + 1) := by
        rw [← List.drop_eq_getElem_cons hlt, List.take_append_drop]
      have e2 : streamOf fs = streamOf (fs.take j) ++ (frameBytes fs[j].type fs[j].body ++ streamOf (fs.drop (j + 1))) := by
        conv_lhs => rw [e1]
        simp only [streamOf, List.flatMap_append, List.flatMap_cons]
      have e3 : streamOf (fs.take (j + 1)) = streamOf (fs.take j) ++ frameBytes fs[j].type fs[j].body := by
        rw [List.take_succ_eq_append_getElem hlt]
        simp only [streamOf, List.flatMap_append, List.flatMap_cons, List.flatMap_nil, List.append_nil]
      rw [e3, List.length_append] at hj3
      refine ⟨(frameBytes fs[j].type fs[j].body).take (k - (streamOf (fs.take j)).length), ?_,
        cut_fault E _ _ _ (by omega) (by have := fs[j].size; omega)⟩
      rw [e2, List.take_append, List.take_of_length_le (by omega), List.take_append_of_le_length (by omega)]
    · have : j = fs.length := by simp at hj1; omega
      subst this
      rw [List.take_length] at hj2 ⊢
      exact ⟨[], by rw [List.append_nil, List.take_of_length_le hj2], .ends _ (by simp)⟩
  obtain ⟨rest, hr, hf⟩ := hfault
  obtain ⟨g1, g2, g3⟩ := C08_stops_at_fault E hmem (fs.take j) rest hf
  obtain ⟨c1, c2, -⟩ := C07_exact_split E hmem (fs.take j)
  simp only
  rw [hr]
  refine ⟨by rw [g1, c1], ?_, g3⟩
  rw [g2, c2, h2, ← List.map_take, hs]

/-- **C100, messages.** The same for the messages of the protocol (those of C81 for which delivery holds): the
sending side writes them in order over a connection that breaks after `k` bytes, for any `k`; exactly those of which
every byte was taken arrive, in order, each as it should. -/
theorem C100_cut_partial (E : Env) (P : Point → Prop) (Q : E.Prf → Prop) (hE : PointCodec E P)
    (hQ : PrfCodec E Q) (hS : SortOK E) (hmem : 1000000 * (104 + E.outputSize) ≤ E.maxAlloc) (ms : List (Message E))
    (hd : ∀ m ∈ ms, Deliverable P Q m) (hsz : ∀ m ∈ ms, ∀ v, m.bytes = .ok v → v.length ≤ 20000000) :
    ∃ bodies : List Bytes, List.Forall₂ (fun m v => m.bytes = .ok v) ms bodies ∧
      ∀ k, ∃ j, FramesWithin k ((ms.zip bodies).map fun p => frameBytes p.1.type p.2) j ∧
        let sent := writeAll k ((ms.zip bodies).map fun p => (p.1.type, p.2))
        List.Forall₂ (ArrivesAs E) (ms.take j) (readHandler E sent.1).dispatched ∧
        (readHandler E sent.1).received = sent.2 := by
  have key : ∀ (ms : List (Message E)), (∀ m ∈ ms, Deliverable P Q m) →
      (∀ m ∈ ms, ∀ v, m.bytes = .ok v → v.length ≤ 20000000) →
      ∃ fs : List (GoodFrame E), List.Forall₂ (fun m f => m.bytes = .ok f.body) ms fs ∧
        (ms.zip (fs.map (·.body))).map (fun p => (p.1.type, p.2)) = fs.map (fun f => (f.type, f.body)) ∧
        ∀ j, List.Forall₂ (ArrivesAs E) (ms.take j) (messagesOf (fs.take j)) := by
    intro ms
    induction ms with
    | nil => exact fun _ _ => ⟨[], .nil, rfl, fun j => by simp [messagesOf]⟩
    | cons m ms ih =>
      intro hd hsz
      obtain ⟨fs, h1, h2, h3⟩ := ih (fun x hx => hd x (List.mem_cons_of_mem _ hx))
        (fun x hx => hsz x (List.mem_cons_of_mem _ hx))
      obtain ⟨v, m', hv, ha, hc⟩ := deliverable_carries E P Q hE hQ hS hmem m (hd m (List.mem_cons_self ..))
      have hl := hsz m (List.mem_cons_self ..) v hv
      refine ⟨⟨m.type, v, some m', hl, hc⟩ :: fs, .cons hv h1, ?_, ?_⟩
      · simp only [List.map_cons, List.zip_cons_cons, h2]
      · intro j
        cases j with
        | zero => simp [messagesOf]
        | succ j => exact .cons ha (h3 j)
  obtain ⟨fs, h1, h2, h3⟩ := key ms hd hsz
  refine ⟨fs.map (·.body), ?_, fun k => ?_⟩
  · rw [List.forall₂_map_right_iff]; exact h1
  · obtain ⟨j, hj, g1, g2, -⟩ := C100_both_ends E (by omega) fs k
    have h2' : (ms.zip (fs.map (·.body))).map (fun p => frameBytes p.1.type p.2) =
        fs.map fun f => frameBytes f.type f.body := by
      have := congrArg (List.map fun q : UInt8 × Bytes => frameBytes q.1 q.2) h2
      simpa [List.map_map, Function.comp_def] using this
    refine ⟨j, by rw [h2']; exact hj, ?_⟩
    simp only
    rw [h2, g1]
    exact ⟨h3 j, g2⟩

/-! ### Concrete cases -/

/-- A ping of 27 bytes and a pong, on a connection that breaks after 40 bytes: the ping arrives, of the pong 13
bytes do. -/
example : (writeAll 40 [(3, be64 5 ++ be64 7), (4, be64 1 ++ be64 2)]).1.length = 40 ∧
    (writeAll 40 [(3, be64 5 ++ be64 7), (4, be64 1 ++ be64 2)]).2 = 27 ∧
    (readHandler Toy.env (writeAll 40 [(3, be64 5 ++ be64 7), (4, be64 1 ++ be64 2)]).1).dispatched =
      [.ping ⟨5, 7⟩] :=
  ⟨by decide +kernel, by decide +kernel, rfl⟩

/-- A body longer than the buffer, cut behind the first flush. -/
example : let r := writeMessageTo 5000 9 (List.replicate 10000 7)
    r.ok = false ∧ r.got.length = 5000 := by
  intro r
  obtain ⟨h1, h2, -⟩ := C100_write 5000 9 (List.replicate 10000 7) (by rw [List.length_replicate]; norm_num)
  have hl := frame_length 9 (List.replicate 10000 7)
  rw [List.length_replicate] at hl
  constructor
  · cases hq : r.ok
    · rfl
    · exact absurd (h2.1 hq) (by omega)
  · show (writeMessageTo 5000 9 (List.replicate 10000 7)).got.length = 5000
    rw [h1, List.length_take, hl]
    rfl

end Gringo.Props
