import Verif.Props.Shared
import Verif.Props.SyncWitness
import Verif.Props.Size
/-
Where the shared blocks of C101 come from, and concrete cases.
-/
namespace Gringo.Props
open Gringo.Spec Gringo.P2P Gringo.Shared

/-- **C101, how it comes about.** A block that the node rejects (say because its lists are not in order) is queued for
two different peers at once, by one message. `C61_refuted` gives the reason why a rejected block is relayed at all. -/
theorem C101_relayed {E : Env} (w : World) (node : Node E) (from_ : Sender) (b : Block E) (known : Known node from_)
    (e : String) (hrej : (node.chain.processBlock node.storage b).1 = .err e)
    (hremote : from_.remote ∉ node.table.map (·.1)) (hheight : b.header.height = node.chain.height)
    (addrs : List String) (hne : from_.addr ∉ addrs)
    (hpeers : ∀ a ∈ addrs, a ∈ node.online ∧ ∃ i c, node.table.find a = some i ∧ i.peer = some c ∧
      (i.height.toNat < b.header.height.toNat ∨ i.totalDifficulty.toNat < b.header.totalDifficulty.toNat)) :
    ∀ a ∈ addrs, ∃ c, .relay a c b ∈ (processMessage w node from_ (.block b)).effects := by
  intro a ha
  obtain ⟨hon, i, c, hi, hc, hlow⟩ := hpeers a ha
  exact ⟨c, C61_refuted w node from_ b known e hrej hremote hheight a (fun h => hne (h ▸ ha)) hon i hi c hc hlow⟩

/-- `toyNode` with a third peer. -/
def threeNode : Node Toy.env :=
  { toyNode with
    table := toyNode.table ++ [("10.0.0.3:13414", { PeerInfo.fresh with status := .connected, peer := some 2 })]
    online := toyNode.online ++ ["10.0.0.3:13414"] }

/-- `C101_relayed`: the bad block, whose inputs are not in order, goes to the second and the third peer. -/
example (w : World) : ∀ a ∈ ["10.0.0.2:13414", "10.0.0.3:13414"],
    ∃ c, .relay a c badBlock ∈ (processMessage w threeNode toySender (.block badBlock)).effects :=
  C101_relayed w threeNode toySender badBlock (by unfold Known; decide) _ badBlock_rejected (by decide) rfl _
    (by decide) (by
      intro a ha
      simp at ha
      rcases ha with rfl | rfl
      · exact ⟨by decide, _, 1, rfl, rfl, .inr (by decide)⟩
      · exact ⟨by decide, _, 2, rfl, rfl, .inr (by decide)⟩)

theorem badBlock_unsorted : isSorted (Input.less Toy.env) badBlock.inputs = false := by decide +kernel

theorem badBlock_ok : WellFormedHeader badBlock.header ∧ InputsOK badBlock.inputs ∧
    OutputsOK Toy.OKPoint (fun _ => True) badBlock.outputs ∧ KernelsOK Toy.OKPoint badBlock.kernels := by
  obtain ⟨wf, hi, ho, hk, -⟩ := sampleBlock_deliverable
  exact ⟨{ wf with }, hi, ho, hk⟩

/-- `C101_refuted`, with insertion sort: both peers get a block with the same input twice. -/
example : ∃ s out1 out2,
    Steps Item.less (begin_ badBlock (insertionSort 2) (insertionSort 1) (insertionSort 1) 2) s ∧
      s.threads = [.finished out1, .finished out2] ∧
      ∀ out, out = out1 ∨ out = out2 → ∃ v b', wire badBlock out = .ok v ∧ Reads (Block.read Toy.env) v b' ∧
        ¬ (b'.inputs.Perm badBlock.inputs ∧ b'.outputs.Perm badBlock.outputs ∧ b'.kernels.Perm badBlock.kernels) := by
  obtain ⟨wf, hi, ho, hk⟩ := badBlock_ok
  obtain ⟨⟨si, so, sk⟩, -⟩ := C101_insertion Toy.env badBlock
  exact C101_refuted Toy.env Toy.OKPoint (fun _ => True) Toy.pointCodec Toy.prfCodec (by norm_num) (by norm_num)
    badBlock wf hi ho hk (by decide) (by decide) (by decide) _ _ _ si so sk (.inl badBlock_unsorted)

/-- The block with its inputs in order. -/
def orderedBlock : Block Toy.env := { badBlock with inputs := badBlock.inputs.reverse }

/-- `C101_sorted_partial`, with insertion sort and any number of goroutines. -/
example (n : Nat) (s : Sys (Item Toy.env))
    (h : Steps Item.less (begin_ orderedBlock (insertionSort 2) (insertionSort 1) (insertionSort 1) n) s) :
    ∀ out, Thread.finished out ∈ s.threads → ∃ v, wire orderedBlock out = .ok v ∧
      Reads (Block.read Toy.env) v { orderedBlock with header := onWire orderedBlock.header } := by
  obtain ⟨wf, hi, ho, hk⟩ := badBlock_ok
  obtain ⟨-, qi, qo, qk⟩ := C101_insertion Toy.env orderedBlock
  exact (C101_sorted_partial Toy.env Toy.OKPoint (fun _ => True) Toy.pointCodec Toy.prfCodec (by norm_num) (by norm_num)
    orderedBlock wf (fun i h => hi i (List.mem_reverse.1 h)) ho hk (by decide) (by decide) (by decide) _ _ _
    (qi (by decide +kernel)) (qo (by decide +kernel)) (qk (by decide +kernel)) n s h).2.2.2

end Gringo.Props
