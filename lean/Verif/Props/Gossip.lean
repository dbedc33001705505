import Mathlib.Combinatorics.SimpleGraph.Star
import Mathlib.Data.Fintype.Card
import Verif.Proofs.Gossip
import Verif.Props.ProgramWitness
/-
C134: a block that is relayed from node to node dies out.
-/
namespace Gringo.Props
open Gringo.Spec Gringo.P2P Gringo.Gossip

variable {E : Env} {ι : Type} [DecidableEq ι]

/-- **C134** for connections without cycles. A block is on its way from node `o` to some of its neighbours, and no other
copy of it is about. Each node is connected to neighbours only, and the connections have no cycle (`G.IsAcyclic`).
Then, whatever else happens in the nodes and however the goroutines are scheduled, no node gets the block twice, the node
that sent it does not get it at all, and so it is delivered fewer times than there are nodes.

Missing: connections with cycles, for which it is not so (`C134_refuted`). What else happens in a node is `Step.other`: it
does not make the node forget that a peer has the block. -/
theorem C134_acyclic_partial (u : Setup ι) (hu : Function.Injective u.name) (G : SimpleGraph ι) (hG : G.IsAcyclic) (b : Block E)
    (s s' : State ι E) (es : List (Event ι)) (o : ι) (js : List ι)
    (hw : ∀ i, (s.node i).online.Nodup ∧ ∀ a ∈ (s.node i).online, ∃ k, G.Adj i k ∧ a = u.name k)
    (hj : s.jobs = []) (hf : s.flying = js.map fun j => [j, o]) (hn : js.Nodup) (ha : ∀ j ∈ js, G.Adj j o) (h : Run u G b s es s') :
    (receivers es).Nodup ∧ o ∉ receivers es ∧ ∀ [Fintype ι], (receivers es).length < Fintype.card ι := by
  obtain ⟨done, hi, hd⟩ := inv_run hu hn (inv_start (b := b) hw hj hf ha) h
  have htr : ∀ p ∈ done, Track G o p := fun p hp => hi.tracks p (List.mem_append_left _ hp)
  have h1 : (receivers es).Nodup := by
    refine List.Nodup.of_map some ?_
    rw [← hd]
    exact (List.nodup_append.1 (hi.nodup hu hn)).1.map_on fun p hp q hq e => ((htr p hp).unique hG (htr q hq)).1 e
  have h2 : o ∉ receivers es := by
    intro hm
    have : some o ∈ done.map List.head? := by rw [hd]; exact List.mem_map.2 ⟨o, hm, rfl⟩
    obtain ⟨p, hp, e⟩ := List.mem_map.1 this
    exact ((htr p hp).unique hG (htr p hp)).2 e
  refine ⟨h1, h2, fun {_} => ?_⟩
  have := List.Nodup.length_le_card (List.nodup_cons.2 ⟨h2, h1⟩)
  rw [List.length_cons] at this
  exact this

/-- C134 does not hold as stated. The nodes stand in a ring of three or more, each is connected to the next one and takes
it to be behind, and the block has the height that they all have. Then a block that is sent to one of them goes round as
often as you like: for every `n` there is a run in which it is delivered `n` times, to one node after the other, and is
then on its way to the next; in this run nothing happens but that nodes get the block and send it on. -/
theorem C134_refuted (u : Setup ι) (hu : Function.Injective u.name) (G : SimpleGraph ι) (b : Block E) (s : State ι E)
    (next : ι → ι) (hn : ∀ i, next (next i) ≠ i)
    (hb : ∀ i, ((s.node i).chain.processBlock (s.node i).storage b).1 = .ok ())
    (hh : ∀ i, b.header.height = (s.node i).chain.height)
    (hp : ∀ i, u.name i ∈ (s.node (next i)).table.map (·.1))
    (ho : ∀ i, u.name (next i) ∈ (s.node i).online)
    (hr : ∀ i, ∃ info, (s.node i).table.find (u.name (next i)) = some info ∧ info.peer.isSome = true ∧
      (info.height.toNat < b.header.height.toNat ∨ info.totalDifficulty.toNat < b.header.totalDifficulty.toNat))
    (i : ι) (hf : s.flying = [[next i, i]]) (n : Nat) :
    ∃ es s', Run u G b s es s' ∧ (∀ e ∈ es, e = .look ∨ ∃ j, e = .deliver j) ∧
      receivers es = (List.range n).map (fun k => next^[k + 1] i) ∧ ∃ route, s'.flying = [next (next^[n] i) :: route] := by
  have hR : Ring u b next s := by
    refine ⟨hb, hh, fun k => ?_, ho, fun k => ?_⟩
    · exact Option.isSome_iff_exists.1 ((find_isSome_iff _ _).2 (hp k))
    · obtain ⟨info, h1, h2, h3⟩ := hr k
      obtain ⟨c, hc⟩ := Option.isSome_iff_exists.1 h2
      refine ⟨info, c, h1, ?_, hc⟩
      unfold Gossip.Behind
      rw [UInt64.lt_iff_toNat_lt, UInt64.lt_iff_toNat_lt]
      exact h3
  obtain ⟨es, s', route, h1, h2, h3, -, h5⟩ := ring_run (G := G) hu hn (w := Net.world ⟨fun _ => none, fun _ => none, fun _ => []⟩ id fun _ => false)
    ⟨_, _, _, rfl, fun _ => .refl _⟩ hR hf n
  exact ⟨es, s', h1, h2, h3, _, h5⟩

/-! ### Concrete cases -/

/-- Three nodes, "a", "b" and "c". -/
def threeNames : Setup (Fin 3) := ⟨fun i => if i = 0 then "a" else if i = 1 then "b" else "c", fun _ i => i⟩

theorem threeNames_inj : Function.Injective threeNames.name := by
  intro i j
  revert i j
  decide

/-- A node that is connected to the two others and takes them to be at height 0. -/
def ringNode (chain : Chain E) (online : List (Fin 3)) : Node E where
  chain
  storage := sqlStorage E
  mempool := none
  table := online.map fun i => (threeNames.name i, { blankEntry with peer := some i })
  online := online.map threeNames.name

theorem ringNode_find (chain : Chain E) (online : List (Fin 3)) (i : Fin 3) (h : i ∈ online) :
    (ringNode chain online).table.find (threeNames.name i) = some { blankEntry with peer := some i.val } := by
  unfold ringNode Table.find
  dsimp only
  induction online with
  | nil => cases h
  | cons j js ih =>
    rw [List.map_cons, List.lookup_cons]
    by_cases e : j = i
    · subst e; simp
    · have : (threeNames.name i == threeNames.name j) = false := by
        simpa using fun e' => e (threeNames_inj e').symm
      rw [this]
      exact ih ((List.mem_cons.1 h).resolve_left (Ne.symm e))

/-- `C134_refuted` applies to a ring of three nodes, each connected to both others: a block goes round a hundred times. -/
example : ∃ (b : Block Toy.env) (s : State (Fin 3) Toy.env),
    (∀ i, (s.node i).online.Nodup ∧ ∀ a ∈ (s.node i).online, ∃ k, (⊤ : SimpleGraph (Fin 3)).Adj i k ∧ a = threeNames.name k) ∧
    s.jobs = [] ∧ s.flying = [[1, 0]] ∧
    ∃ es s', Run threeNames ⊤ b s es s' ∧ (receivers es).length = 300 := by
  obtain ⟨f, b, chain, hf, hc, hb, hh, h0, -⟩ := sample_relay
  refine ⟨b, ⟨fun i => ringNode chain [i + 1, i + 2], [], [[1, 0]]⟩, ?_, rfl, rfl, ?_⟩
  · intro i
    show (List.map threeNames.name [i + 1, i + 2]).Nodup ∧ ∀ a ∈ List.map threeNames.name [i + 1, i + 2], _
    revert i
    simp only [SimpleGraph.top_adj]
    decide
  · obtain ⟨es, s', h1, -, h3, -⟩ := C134_refuted threeNames threeNames_inj ⊤ b
      (⟨fun i => ringNode chain [i + 1, i + 2], [], [[1, 0]]⟩ : State (Fin 3) Toy.env) (· + 1) (by decide) (fun _ => hb)
      (fun _ => hh)
      (fun i => (find_isSome_iff _ _).1 (Option.isSome_iff_exists.2
        ⟨_, ringNode_find chain [i + 1 + 1, i + 1 + 2] i (by revert i; decide)⟩))
      (fun i => List.mem_map.2 ⟨i + 1, by simp, rfl⟩)
      (fun i => ⟨_, ringNode_find chain _ _ (by simp), rfl, .inl (UInt64.lt_iff_toNat_lt.1 h0)⟩) 0 rfl 300
    exact ⟨es, s', h1, by rw [h3]; simp⟩

/-- `C134_acyclic_partial` applies to three nodes in a line, "a", "b" and "c": the block goes from "a" to "b" and from there to
"c", so that it reaches as many nodes as the theorem allows. -/
example : ∃ (b : Block Toy.env) (s s' : State (Fin 3) Toy.env) (es : List (Event (Fin 3))),
    (∀ i, (s.node i).online.Nodup ∧ ∀ a ∈ (s.node i).online, ∃ k,
      (SimpleGraph.starGraph (1 : Fin 3)).Adj i k ∧ a = threeNames.name k) ∧
    (SimpleGraph.starGraph (1 : Fin 3)).IsAcyclic ∧ s.jobs = [] ∧ s.flying = [[1, 0]] ∧
    (SimpleGraph.starGraph (1 : Fin 3)).Adj 1 0 ∧ Run threeNames (SimpleGraph.starGraph 1) b s es s' ∧
    receivers es = [1, 2] := by
  obtain ⟨f, b, chain, hf, hc, hb, hh, h0, -⟩ := sample_relay
  have hreal : Program.Real (Net.world ⟨fun _ => none, fun _ => none, fun _ => []⟩ id fun _ => false) :=
    ⟨_, _, _, rfl, fun _ => .refl _⟩
  obtain ⟨es, js, h1, h2⟩ := hop (u := threeNames) (G := SimpleGraph.starGraph 1) (b := b) (i := 0) (j := 1) (k := 2)
    (route := []) (s := ⟨fun i => ringNode chain (if i = 1 then [0, 2] else [1]), [], [[1, 0]]⟩) hreal
    ⟨_, ringNode_find chain _ _ (by simp)⟩ hb hh (List.mem_map.2 ⟨2, by simp, rfl⟩)
    ⟨_, 2, ringNode_find chain _ _ (by simp), .inl h0, rfl⟩ (by decide) rfl
  have hd := receive_ok (u := threeNames) (b := b) (i := 1) (j := 2)
    (w := Net.world ⟨fun _ => none, fun _ => none, fun _ => []⟩ id fun _ => false)
    (ringNode_find chain [1] 1 (by simp)) hb
  refine ⟨b, _, _, _, ?_, SimpleGraph.isAcyclic_starGraph _, rfl, rfl, by simp, h1.next (.deliver [] [] 1 2 [0] _ hreal rfl hd), ?_⟩
  · intro i
    show (List.map threeNames.name (if i = 1 then [0, 2] else [1])).Nodup ∧
      ∀ a ∈ List.map threeNames.name (if i = 1 then [0, 2] else [1]), _
    revert i
    simp only [SimpleGraph.starGraph_adj]
    decide
  · have : receivers es = [] := by
      unfold receivers
      rw [List.filterMap_eq_nil_iff]
      intro e he
      rw [h2 e he]
    show 1 :: receivers (es ++ [.deliver 2]) = _
    unfold receivers at this ⊢
    rw [List.filterMap_append, this]
    rfl

end Gringo.Props
