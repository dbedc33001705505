import Verif.Props.Exchange
import Verif.Props.SyncWitness
import Verif.Props.Size
/-
Concrete cases for C97.
-/
set_option maxRecDepth 100000
namespace Gringo.Props
open Gringo.Spec Gringo.P2P

/-- A node that stores two blocks. -/
def storingNode (blocks : List (Block Toy.env)) : Node Toy.env := { toyNode with storage := listStorage blocks }

theorem storing_head (blocks : List (Block Toy.env)) : HasHash (storingNode blocks).chain.head (Toy.env.blake2b []) :=
  genesis_hash Toy.env .testnet1

theorem sampleBlock_short : ∀ v, sampleBlock.bytes = .ok v → v.length ≤ 20000000 :=
  sampleMessages_short (.block sampleBlock) (by simp [sampleMessages])

/-- `C97_block_partial`: the sample block, asked for by its hash. -/
example (w : Nat → World) : ∃ asked, (sendBlockRequest toyHash >>= Message.frame (E := Toy.env)) = .ok asked ∧
    (converse (fun _ x => x) w toySender (asked.length + 1) (some (storingNode [sampleBlock])) asked).effects =
      [.reply (.block sampleBlock)] := by
  obtain ⟨t1, t2, -⟩ := toyHash_ok
  obtain ⟨asked, h1, h2⟩ := C97_block_partial Toy.OKPoint (fun _ => True) Toy.pointCodec Toy.prfCodec Toy.sortOK
    (by norm_num) toyHash t2 [sampleBlock] ⟨_, List.mem_singleton.2 rfl, t1⟩
    (by intro b hb; rw [List.mem_singleton] at hb; subst hb; exact ⟨sampleBlock_deliverable, sampleBlock_short⟩)
    (fun _ x => x) (fun _ x => ⟨rfl, rfl, rfl, fun _ h => h⟩) w toySender (storingNode [sampleBlock]) rfl
    _ (storing_head _) toy_known
  obtain ⟨b, hb, -, h3, -⟩ := h2 (asked.length + 1) (by omega)
  rw [List.mem_singleton] at hb
  subst hb
  exact ⟨asked, h1, h3⟩

/-- `C97_headers`: one block follows the one asked for. -/
example (w : Nat → World) : ∃ asked written,
    (sendHeaderRequest ⟨[List.replicate 32 1, toyHash]⟩ >>= Message.frame (E := Toy.env)) = .ok asked ∧
    (converse (fun _ x => x) w toySender (asked.length + 1) (some (storingNode [sampleBlock, toyParent])) asked).effects =
      [.reply (.headers ⟨[toyParent.header]⟩)] ∧
    (readHandler Toy.env written).dispatched = [.headers ⟨[onWire toyParent.header]⟩] := by
  obtain ⟨t1, t2, t3⟩ := toyHash_ok
  have hne : toyHash ≠ List.replicate 32 1 := by decide +kernel
  obtain ⟨asked, h1, h2⟩ := C97_headers Toy.OKPoint (fun _ => True) Toy.pointCodec Toy.prfCodec Toy.sortOK
    (by norm_num) ⟨[List.replicate 32 1, toyHash]⟩
    ⟨by simp, by intro x hx; simp at hx; rcases hx with rfl | rfl; · rfl
                 · exact t2⟩
    [] [toyParent] sampleBlock toyHash t1 (by simp) [List.replicate 32 1] [] rfl
    (by intro b hb; rw [List.mem_singleton] at hb; subst hb; exact { sampleHeader_wf with })
    (fun _ x => x) (fun _ x => ⟨rfl, rfl, rfl, fun _ h => h⟩) w toySender (storingNode [sampleBlock, toyParent]) rfl
    _ (storing_head _) t3
    (by
      intro h' hh'
      rw [List.mem_singleton] at hh'
      subst hh'
      refine ⟨by decide +kernel, ?_⟩
      intro b hb hx
      have e : b.hash = .ok toyHash := by
        simp at hb
        rcases hb with rfl | rfl <;> exact t1
      have : b.hash = .ok (List.replicate 32 1) := hx
      rw [e] at this
      exact hne (Out.ok.inj this)) toy_known
  obtain ⟨written, h3, -, h5⟩ := h2 (asked.length + 1) (by omega)
  exact ⟨asked, written, h1, h3, h5⟩

/-- `C97_ping`. -/
example (w : Nat → World) : ∃ asked, (sendPing >>= Message.frame (E := Toy.env)) = .ok asked ∧
    (converse (fun _ x => x) w toySender (asked.length + 1) (some toyNode) asked).effects = [.reply (.pong ⟨10, 0⟩)] := by
  obtain ⟨asked, h1, h2⟩ := C97_ping Toy.OKPoint (fun _ => True) Toy.pointCodec Toy.prfCodec Toy.sortOK
    (by norm_num) (fun _ x => x) (fun _ x => ⟨rfl, rfl, rfl, fun _ h => h⟩) w toySender toyNode
    _ (genesis_hash Toy.env .testnet1) toy_known
  obtain ⟨_, h3, -⟩ := h2 (asked.length + 1) (by omega)
  exact ⟨asked, h1, h3⟩

/-- `C97_refuted`: the block with 200 000 kernels. -/
example (w : Nat → World) : ∃ written, (Message.block longBlock).frame = .ok written ∧
    (readHandler Toy.env written).dispatched = [] := by
  obtain ⟨-, v, hv, hl⟩ := longBlock_long
  obtain ⟨t1, t2, -⟩ := toyHash_ok
  have h64 : v.length < 2 ^ 64 := by
    obtain ⟨⟨wf, hi, ho, hk, -⟩, -⟩ := longBlock_long
    obtain ⟨v', hv', hl'⟩ := C99_size Toy.env Toy.OKPoint (fun _ => True) Toy.pointCodec Toy.prfCodec Toy.sortOK
      (by norm_num) longBlock wf hi ho hk
    have e : (Message.block longBlock).bytes = .ok v' := hv'
    rw [hv] at e
    cases e
    rw [hl', show longBlock.kernels.length = 200000 from List.length_replicate ..]
    have : longBlock.header.pow.edgeBits.toNat ≤ 64 := wf.pow.2.1
    have : longBlock.inputs.length = 2 := rfl
    have : (longBlock.outputs.map fun o => 42 + (Toy.env.prfBytes o.proof).length).sum ≤ 10000 := by decide
    omega
  obtain ⟨-, written, -, -, h1, h2, -⟩ := C97_refuted Toy.OKPoint (fun _ => True) Toy.pointCodec Toy.prfCodec Toy.sortOK
    (by norm_num) toyHash t2 longBlock t1 v hv hl h64
    (fun _ x => x) (fun _ x => ⟨rfl, rfl, rfl, fun _ h => h⟩) w toySender (storingNode [longBlock]) rfl
    _ (storing_head _) toy_known
  exact ⟨written, h1, h2⟩

end Gringo.Props
