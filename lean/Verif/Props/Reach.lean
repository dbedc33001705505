import Mathlib.Tactic.Ring
import Verif.Props.Gossip
import Verif.Proofs.Reach
/-
C135: a block reaches every node. And more on C134: how long it takes.
-/
namespace Gringo.Props
open Gringo.Spec Gringo.P2P Gringo.Gossip

variable {E : Env} {ι : Type} [DecidableEq ι]

/-- **C134** for connections without cycles, as in `C134_acyclic_partial`: the nodes have done with the block after no more
than four times the square of their number of steps, those of other work not counted. -/
theorem C134_ends_partial [Fintype ι] (u : Setup ι) (hu : Function.Injective u.name) (G : SimpleGraph ι) (hG : G.IsAcyclic)
    (b : Block E) (s s' : State ι E) (es : List (Event ι)) (o : ι) (js : List ι)
    (hw : ∀ i, (s.node i).online.Nodup ∧ ∀ a ∈ (s.node i).online, ∃ k, G.Adj i k ∧ a = u.name k)
    (hj : s.jobs = []) (hf : s.flying = js.map fun j => [j, o]) (hn : js.Nodup) (ha : ∀ j ∈ js, G.Adj j o)
    (h : Run u G b s es s') : (es.filter (· ≠ .other)).length ≤ 4 * Fintype.card ι ^ 2 := by
  have h1 := (C134_acyclic_partial u hu G hG b s s' es o js hw hj hf hn ha h).2.2
  have h2 := (todo_run hw h).2
  have h3 : todo s = js.length := by simp [todo, hj, hf]
  have h4 := hn.length_le_card
  have h5 : 4 * Fintype.card ι * (receivers es).length ≤ 4 * Fintype.card ι * (Fintype.card ι - 1) :=
    Nat.mul_le_mul_left _ (by omega)
  have h6 : 4 * Fintype.card ι ^ 2 = 4 * Fintype.card ι * (Fintype.card ι - 1) + 4 * Fintype.card ι := by
    obtain ⟨m, hm⟩ : ∃ m, Fintype.card ι = m + 1 := ⟨Fintype.card ι - 1, by omega⟩
    rw [hm, Nat.add_sub_cancel]
    ring
  omega

/-- **C134** for connections without cycles: the nodes can always go on until they have done with the block; by
`C134_ends_partial` every way to go on comes to this. -/
theorem C134_rest_partial [Fintype ι] (u : Setup ι) (hu : Function.Injective u.name) (G : SimpleGraph ι) (hG : G.IsAcyclic)
    (b : Block E) (s t : State ι E) (es : List (Event ι)) (o : ι) (js : List ι)
    (hw : ∀ i, (s.node i).online.Nodup ∧ ∀ a ∈ (s.node i).online, ∃ k, G.Adj i k ∧ a = u.name k)
    (hj : s.jobs = []) (hf : s.flying = js.map fun j => [j, o]) (hn : js.Nodup) (ha : ∀ j ∈ js, G.Adj j o)
    (h : Run u G b s es t) :
    ∃ fs t', Run u G b s (es ++ fs) t' ∧ (∀ e ∈ fs, e = .look ∨ ∃ j, e = .deliver j) ∧
      ∀ e t'', Step u G b t' e t'' → e = .lost ∨ e = .other := by
  by_contra hno
  have key : ∀ m : Nat, ∃ fs t', fs.length = m ∧ Run u G b s (es ++ fs) t' ∧ ∀ e ∈ fs, e = .look ∨ ∃ j, e = .deliver j := by
    intro m
    induction m with
    | zero => exact ⟨[], t, rfl, by rw [List.append_nil]; exact h, by simp⟩
    | succ m ih =>
      obtain ⟨fs, t', h1, h2, h3⟩ := ih
      have : ∃ e t'', Step u G b t' e t'' ∧ ¬ (e = .lost ∨ e = .other) := by
        by_contra hc
        refine hno ⟨fs, t', h2, h3, fun e t'' hs => ?_⟩
        by_contra he
        exact hc ⟨e, t'', hs, he⟩
      obtain ⟨e, t'', hs, he⟩ := this
      refine ⟨fs ++ [e], t'', by simp [h1], by rw [← List.append_assoc]; exact h2.next hs, ?_⟩
      intro e' he'
      rcases List.mem_append.1 he' with he' | he'
      · exact h3 e' he'
      · rw [List.mem_singleton.1 he']
        cases e with
        | deliver j => exact .inr ⟨j, rfl⟩
        | look => exact .inl rfl
        | lost => exact absurd (.inl rfl) he
        | other => exact absurd (.inr rfl) he
  obtain ⟨fs, t', h1, h2, h3⟩ := key (4 * Fintype.card ι ^ 2 + 1)
  have := C134_ends_partial u hu G hG b s t' _ o js hw hj hf hn ha h2
  have hfs : fs.filter (· ≠ .other) = fs := by
    refine List.filter_eq_self.2 fun e he => ?_
    rcases h3 e he with rfl | ⟨j, rfl⟩ <;> simp
  rw [List.filter_append, List.length_append, hfs] at this
  omega

/-- **C135** for nodes that are at the height of the block. Each node is connected to its neighbours and takes them to be
behind; its chain takes the block and is at its height. A node `o` has sent the block to all its neighbours, and no copy
got lost. Then, when the nodes have done with the block, every node that there is a way to from `o` has got it.

Missing: nodes whose chain is not at the height of the block (`C135_refuted`), messages that get lost, and all else that
happens in the nodes meanwhile. -/
theorem C135_everyone_partial (u : Setup ι) (hu : Function.Injective u.name) (G : SimpleGraph ι) (b : Block E)
    (s s' : State ι E) (es : List (Event ι)) (o : ι) (js : List ι)
    (hb : ∀ i, ((s.node i).chain.processBlock (s.node i).storage b).1 = .ok ())
    (hh : ∀ i, b.header.height = (s.node i).chain.height)
    (ho : ∀ i a, a ∈ (s.node i).online ↔ ∃ k, G.Adj i k ∧ a = u.name k)
    (hr : ∀ i k, G.Adj i k → ∃ info, (s.node i).table.find (u.name k) = some info ∧ info.peer.isSome = true ∧
      (info.height.toNat < b.header.height.toNat ∨ info.totalDifficulty.toNat < b.header.totalDifficulty.toNat))
    (hj : s.jobs = []) (hf : s.flying = js.map fun j => [j, o]) (ha : ∀ j, j ∈ js ↔ G.Adj o j)
    (h : Run u G b s es s') (he : ∀ e ∈ es, e = .look ∨ ∃ j, e = .deliver j)
    (hrest : ∀ e t, Step u G b s' e t → e = .lost ∨ e = .other) (k : ι) (hk : G.Reachable o k) (hne : k ≠ o) :
    k ∈ receivers es := by
  have hkeen : ∀ j, Keen u G b j (s.node j) := by
    intro j
    refine ⟨hb j, hh j, ho j, fun k hk => ?_⟩
    obtain ⟨i, h1, h2, -⟩ := hr j k hk
    obtain ⟨c, hc⟩ := Option.isSome_iff_exists.1 h2
    exact ⟨i, c, h1, hc⟩
  have hstart : Cov u G b o s [] := by
    refine cov_start hkeen (fun j k i h1 h2 => ?_) hj hf ha
    obtain ⟨i', g1, -, g3⟩ := hr j k h1
    rw [h2] at g1
    cases g1
    unfold Gossip.Behind
    rw [UInt64.lt_iff_toNat_lt, UInt64.lt_iff_toNat_lt]
    exact g3
  obtain ⟨done, h1, h2⟩ := cov_run hu hstart h he
  rcases cov_rest h1 hrest hu hk with e | ⟨q, hq⟩
  · exact absurd e hne
  · have : some k ∈ (receivers es).map some := by
      rw [← h2]
      exact List.mem_map.2 ⟨_, hq, rfl⟩
    obtain ⟨k', hk', e⟩ := List.mem_map.1 this
    cases e
    exact hk'

/-- **C134** and **C135** together: without cycles, every node that there is a way to gets the block exactly once. -/
theorem C135_once_partial (u : Setup ι) (hu : Function.Injective u.name) (G : SimpleGraph ι) (hG : G.IsAcyclic) (b : Block E)
    (s s' : State ι E) (es : List (Event ι)) (o : ι) (js : List ι)
    (hb : ∀ i, ((s.node i).chain.processBlock (s.node i).storage b).1 = .ok ())
    (hh : ∀ i, b.header.height = (s.node i).chain.height)
    (ho : ∀ i, (s.node i).online.Nodup ∧ ∀ a, a ∈ (s.node i).online ↔ ∃ k, G.Adj i k ∧ a = u.name k)
    (hr : ∀ i k, G.Adj i k → ∃ info, (s.node i).table.find (u.name k) = some info ∧ info.peer.isSome = true ∧
      (info.height.toNat < b.header.height.toNat ∨ info.totalDifficulty.toNat < b.header.totalDifficulty.toNat))
    (hj : s.jobs = []) (hf : s.flying = js.map fun j => [j, o]) (hn : js.Nodup) (ha : ∀ j, j ∈ js ↔ G.Adj o j)
    (h : Run u G b s es s') (he : ∀ e ∈ es, e = .look ∨ ∃ j, e = .deliver j)
    (hrest : ∀ e t, Step u G b s' e t → e = .lost ∨ e = .other) (k : ι) (hk : G.Reachable o k) (hne : k ≠ o) :
    (receivers es).count k = 1 :=
  List.count_eq_one_of_mem
    (C134_acyclic_partial u hu G hG b s s' es o js (fun i => ⟨(ho i).1, fun a => ((ho i).2 a).1⟩) hj hf hn
      (fun j h => ((ha j).1 h).symm) h).1
    (C135_everyone_partial u hu G b s s' es o js hb hh (fun i => (ho i).2) hr hj hf ha h he hrest k hk hne)

/-- C135 does not hold as stated: a block that is not at the height of the nodes, such as one that comes next on top of
their chains, is not relayed at all. It reaches the neighbours of the node that sends it, each no more than once, and
nobody else. -/
theorem C135_refuted (u : Setup ι) (G : SimpleGraph ι) (b : Block E) (s s' : State ι E) (es : List (Event ι)) (o : ι)
    (js : List ι) (hh : ∀ i, (s.node i).chain.height ≠ b.header.height) (hj : s.jobs = [])
    (hf : s.flying = js.map fun j => [j, o]) (h : Run u G b s es s') (he : ∀ e ∈ es, e ≠ .other) :
    (receivers es).Subperm js := by
  obtain ⟨-, -, done, h1, h2⟩ := still_run hh hj hf h he
  have h3 : done.Subperm (js.map fun j => [j, o]) := (List.sublist_append_left _ _).subperm.trans h1
  obtain ⟨l, p, q⟩ := h3
  have h4 : (done.map List.head?).Subperm ((js.map fun j => [j, o]).map List.head?) := ⟨_, p.map _, q.map _⟩
  rw [h2, List.map_map] at h4
  obtain ⟨l, p, q⟩ := h4
  have h5 : ((receivers es).map some).filterMap id = receivers es := by simp
  have h6 : (js.map (List.head? ∘ fun j => [j, o])).filterMap id = js := by simp [Function.comp_def]
  have := (⟨l.filterMap id, p.filterMap id, q.filterMap id⟩ :
    (((receivers es).map some).filterMap id).Subperm ((js.map (List.head? ∘ fun j => [j, o])).filterMap id))
  rw [h5, h6] at this
  exact this

/-! ### Concrete cases -/

/-- C134 and C135 apply to three nodes in a line, "a", "b" and "c", with a block from "b" to both others, and to one that
starts at an end: the nodes come to rest, and then each of the others has got the block once. -/
example (o : Fin 3) : ∃ (b : Block Toy.env) (s s' : State (Fin 3) Toy.env) (es : List (Event (Fin 3))),
    (∀ i, (s.node i).chain.height = b.header.height) ∧ Run threeNames (SimpleGraph.starGraph 1) b s es s' ∧
    (∀ e t, Step threeNames (SimpleGraph.starGraph 1) b s' e t → e = .lost ∨ e = .other) ∧
    ∀ k, k ≠ o → (receivers es).count k = 1 := by
  obtain ⟨f, b, chain, hf, hc, hb, hh, h0, -⟩ := sample_relay
  have hadj : ∀ i k : Fin 3, (SimpleGraph.starGraph 1).Adj i k ↔ k ∈ (if i = 1 then [0, 2] else [1] : List (Fin 3)) := by
    simp only [SimpleGraph.starGraph_adj]
    decide
  have hon : ∀ i : Fin 3, ((ringNode chain (if i = 1 then [0, 2] else [1])).online).Nodup ∧
      ∀ a, a ∈ (ringNode chain (if i = 1 then [0, 2] else [1])).online ↔ ∃ k, (SimpleGraph.starGraph 1).Adj i k ∧
        a = threeNames.name k := by
    intro i
    refine ⟨?_, fun a => ?_⟩
    · show (List.map threeNames.name (if i = 1 then [0, 2] else [1])).Nodup
      revert i; decide
    · show a ∈ List.map threeNames.name (if i = 1 then [0, 2] else [1]) ↔ _
      simp only [List.mem_map, hadj, eq_comm]
  let js : List (Fin 3) := if o = 1 then [0, 2] else [1]
  have hn : js.Nodup := by revert o; decide
  have ha : ∀ j, j ∈ js ↔ (SimpleGraph.starGraph 1).Adj o j := fun j => (hadj o j).symm
  let s : State (Fin 3) Toy.env := ⟨fun i => ringNode chain (if i = 1 then [0, 2] else [1]), [], js.map fun j => [j, o]⟩
  obtain ⟨es, s', h1, h2, h3⟩ := C134_rest_partial threeNames threeNames_inj _ (SimpleGraph.isAcyclic_starGraph 1) b s s [] o js
    (fun i => ⟨(hon i).1, fun a => ((hon i).2 a).1⟩) rfl rfl hn (fun j h => ((ha j).1 h).symm) .refl
  refine ⟨b, s, s', es, fun _ => hh.symm, h1, h3, fun k hk => ?_⟩
  exact C135_once_partial threeNames threeNames_inj _ (SimpleGraph.isAcyclic_starGraph 1) b s s' es o js (fun _ => hb)
    (fun _ => hh) hon (fun i k hik => ⟨_, ringNode_find chain _ _ ((hadj i k).1 hik), rfl, .inl (UInt64.lt_iff_toNat_lt.1 h0)⟩)
    rfl rfl hn ha h1 h2 h3 k ((SimpleGraph.isTree_starGraph 1).connected.preconnected o k) hk

/-- `C135_refuted` applies to nodes at height 0 and a block above that. -/
example : ∃ (b : Block Toy.env) (s : State (Fin 3) Toy.env), (∀ i, (s.node i).chain.height ≠ b.header.height) ∧
    s.jobs = [] ∧ s.flying = [1].map fun j => [j, 0] := by
  obtain ⟨f, b, chain, hf, hc, hb, hh, h0, -⟩ := sample_relay
  refine ⟨b, ⟨fun _ => ringNode { chain with height := 0 } [], [], [[1, 0]]⟩, fun _ e => ?_, rfl, rfl⟩
  rw [← e] at h0
  exact absurd h0 (by show ¬ (0 : UInt64) < 0; decide)

end Gringo.Props
