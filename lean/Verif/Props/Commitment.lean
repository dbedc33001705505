import Verif.Model.Print
/-
C114: a serialised commitment can be read back.
-/
namespace Gringo.Props
open Gringo Gringo.Print

/-- **C114, what holds.** Into a commitment that already has the right length, the serialised one is read back and
nothing more is taken from the stream. -/
theorem C114_same_length_partial (receiver c rest : Bytes) (h : receiver.length = c.length) :
    commitmentRead receiver (commitmentBytes c ++ rest) = (.ok c, rest) := by
  unfold commitmentRead commitmentBytes Rd.readFull
  rw [h, if_pos (by simp)]
  simp

/-- **C114, what a read does in general.** Whatever is in the stream, a read that reports no error gives as many bytes
as the receiver had before, from the front of the stream; it fails exactly if there are fewer. -/
theorem C114_keeps_length_partial (receiver stream : Bytes) :
    (∀ c rest, commitmentRead receiver stream = (.ok c, rest) → c.length = receiver.length ∧ stream = c ++ rest) ∧
    ((∃ c rest, commitmentRead receiver stream = (.ok c, rest)) ↔ receiver.length ≤ stream.length) := by
  unfold commitmentRead Rd.readFull
  by_cases h : receiver.length ≤ stream.length
  · rw [if_pos h]
    refine ⟨?_, ⟨fun _ => h, fun _ => ⟨_, _, rfl⟩⟩⟩
    intro c rest e
    simp only [Prod.mk.injEq, Out.ok.injEq] at e
    obtain ⟨rfl, rfl⟩ := e
    simp [h]
  · rw [if_neg h]
    refine ⟨?_, ⟨?_, fun h' => absurd h' h⟩⟩
    · intro c rest e
      split at e <;> simp at e
    · rintro ⟨c, rest, e⟩
      split at e <;> simp at e

/-- **C114 is false of the code.** Into a fresh commitment nothing is read, and no error is reported: every commitment
comes back empty. -/
theorem C114_refuted (c rest : Bytes) :
    commitmentRead [] (commitmentBytes c ++ rest) = (.ok [], c ++ rest) := by
  simp [commitmentRead, commitmentBytes, Rd.readFull]

/-- A commitment of 33 bytes, and one of another length. -/
example : (List.replicate 33 (0 : UInt8)).length = (8 :: List.replicate 32 (7 : UInt8)).length := by decide
example : (8 :: List.replicate 32 (7 : UInt8)) ≠ [] := by decide

end Gringo.Props
