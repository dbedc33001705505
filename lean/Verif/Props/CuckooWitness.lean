import Verif.Props.Cuckoo
/-
C43 fails at the level of the verifier.
-/
namespace Gringo.Props
open Gringo.Spec Gringo.Cuckoo

set_option maxRecDepth 100000 in
/-- The verifier itself: 42 increasing nonces in range, accepted by `Cuckaroo.Verify`, whose edges are a
cycle of length 6 with a path of 36 edges attached. -/
theorem C43_refuted_verify :
    let c : Cuckaroo := ⟨⟨0x20, 0, 0, 0⟩⟩
    let nonces : List UInt32 := [72, 82, 121, 135, 234, 267, 293, 369, 481, 496, 521, 682, 722, 802, 840, 903,
      916, 939, 1115, 1357, 1444, 1659, 1818, 1881, 1943, 1963, 1987, 2171, 2264, 2271, 2306, 2403, 2414, 2608,
      2696, 2697, 2980, 3581, 3780, 3783, 3826, 3883]
    nonces.length = 42 ∧ c.verify nonces 12 = true ∧
      ¬ IsCycle (nonces.map (fun n => c.newEdge n (shl1 12 - 1))) := by
  intro c nonces
  refine ⟨rfl, by decide +kernel, ?_⟩
  intro h
  obtain ⟨q, -, hq⟩ := h.twoU 0 (by simp [nonces])
  have h1 := hq 23 ⟨by decide, _, _, rfl, rfl, by decide +kernel⟩
  have h2 := hq 28 ⟨by decide, _, _, rfl, rfl, by decide +kernel⟩
  rw [← h2] at h1
  cases h1

end Gringo.Props
