import Verif.Proofs.Program
import Verif.Proofs.Place
/-
Helper lemmas: the goroutines that `Stop` starts.
-/
namespace Gringo.Whole
open Gringo.P2P Gringo.Spec Gringo.Props

variable {M : Type} {frame : M → Bytes} {ping ask : M}

theorem table_grows {w w' : State M} {k : Lifecycle.Kind} (hs : Step frame ping ask w k w') {a : String}
    (h : a ∈ w.table.map (·.1)) : a ∈ w'.table.map (·.1) := by
  cases hs with
  | add addr resolve hr =>
    obtain ⟨rest, e, -⟩ := Props.add_prefix resolve w.table addr
    simp only [e, List.map_append, List.mem_append]
    exact .inl h
  | _ => first | exact h | (simp only [Props.update_keys]; exact h)

/-- There is one goroutine for each address, and the address is in the table. -/
theorem closers_keys {w : State M} (h : Reachable frame ping ask w) :
    (w.closers.map (·.1)).Nodup ∧ ∀ e ∈ w.closers, e.1 ∈ w.table.map (·.1) := by
  induction h with
  | new => exact ⟨List.nodup_nil, nofun⟩
  | @next w w' k h hp hs ih =>
    have same : w'.closers.map (·.1) = w.closers.map (·.1) →
        (w'.closers.map (·.1)).Nodup ∧ ∀ e ∈ w'.closers, e.1 ∈ w'.table.map (·.1) := fun e => by
      refine ⟨by rw [e]; exact ih.1, fun c hc => ?_⟩
      have : c.1 ∈ w.closers.map (·.1) := by rw [← e]; exact List.mem_map_of_mem hc
      obtain ⟨d, hd, e'⟩ := List.mem_map.1 this
      rw [← e']
      exact table_grows hs (ih.2 d hd)
    cases hs with
    | quitting hl hq =>
      refine ⟨?_, fun e he => ?_⟩
      · have := unique_reachable h
        unfold UniqueKeys at this
        simpa [List.map_map, Function.comp_def] using this
      · obtain ⟨d, hd, rfl⟩ := List.mem_map.1 he
        exact List.mem_map_of_mem hd
    | closeLock l r addr hx hl => exact same (by simp [hx])
    | closeCall l r addr i l' r' x hx => exact same (by simp [hx])
    | closeDone l r addr k x hx => exact same (by simp [hx])
    | _ => exact same rfl

theorem one_closer {w : State M} (h : Reachable frame ping ask w) {a : String} {c d : Closer}
    (hc : (a, c) ∈ w.closers) (hd : (a, d) ∈ w.closers) : c = d := by
  have := List.inj_on_of_nodup_map (closers_keys h).1 hc hd rfl
  injection this

/-- The call of `Close` that a goroutine of `Stop` is in. -/
theorem closing_call {w : State M} (h : Reachable frame ping ask w) :
    ∀ a c k, (a, Closer.closing c k) ∈ w.closers → ∃ x ∈ w.conns, x.id = c ∧ x.addr = a ∧ x.sortOf k = some 0 := by
  induction h with
  | new => intro a c k h; cases h
  | @next w w' k0 h hp hs ih =>
    intro a c k hm
    have old : (a, Closer.closing c k) ∈ w.closers → ∃ x ∈ w'.conns, x.id = c ∧ x.addr = a ∧ x.sortOf k = some 0 := fun e => by
      obtain ⟨x, hx, h1, h2, h3⟩ := ih a c k e
      obtain ⟨y, hy, g1, g2, g3, -⟩ := Props.conn_stays (inv_reachable h) hs hx
      refine ⟨y, hy, g1.trans h1, g2.trans h2, sortOf_kept ?_ h3⟩
      rcases g3 with g3 | ⟨k', g3⟩
      · rw [g3]; exact List.prefix_refl _
      · exact sort_step g3
    cases hs with
    | quitting hl hq =>
      obtain ⟨e, -, e'⟩ := List.mem_map.1 hm
      cases e'
    | closeLock l r addr hx hl =>
      rcases mem_replaced (x := (addr, Closer.pending)) hm with e | e
      · cases e
      · exact old (by rw [hx]; exact e)
    | closeCall l r addr i l' r' x hx ht hp' hx' =>
      rcases mem_replaced (x := (addr, Closer.locked)) hm with e | e
      · cases e
        obtain ⟨-, p, hr, hrel⟩ := refines h
        obtain ⟨y, hy, y1, y2⟩ := (PoolRun.inv_reachable hr).entries.peer _ i x.id (by rw [hrel.table]; exact ht) hp'
        rw [hrel.links] at hy
        obtain ⟨z, hz, rfl⟩ := List.mem_map.1 hy
        have e := same_id h hz (show x ∈ w.conns by rw [hx']; simp) y1
        refine ⟨x.calls (.disconnect .cas), by simp, rfl, ?_, ?_⟩
        · rw [← e]; exact y2
        · simp [Conn.calls, Conn.sortOf, sort]
      · exact old (by rw [hx]; exact e)
    | closeDone l r addr k' x hx hx' hk =>
      rcases mem_replaced (x := (addr, Closer.closing x.id k')) hm with e | e
      · cases e
      · exact old (by rw [hx]; exact e)
    | _ => exact old hm

end Gringo.Whole
