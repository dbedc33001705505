import Mathlib.Logic.Relation
import Verif.Spec.Locks
/-
Lemmas about locks: a goroutine has exactly the locks that its place in the program says.
-/
namespace Gringo.Locks
open Stmt Mutex Loc

/-- How a piece of memory is protected. -/
inductive Guard where
  /-- read and written only with the lock -/
  | both (m : Mutex)
  /-- written only with the lock -/
  | writes (m : Mutex)
  /-- never written -/
  | never
  | free

/-- How the code protects its memory. -/
def guard : Loc → Guard
  | peersTable => .both ptmu
  | connectedPeers => .both cpmu
  | bannedPeers => .both bnmu
  | protocolVersion n => .both (info n)
  | lastConn n => .both (info n)
  | nonces => .both Mutex.run
  | Loc.chain => .never
  | Loc.peer n => .writes (info n)
  | height n => .writes (info n)
  | totalDifficulty n => .writes (info n)
  | capabilities n => .writes (info n)
  | connected => .free
  | status _ => .free
  | lists _ => .free

/-- The order in which locks are taken. -/
def rank : Mutex → Nat
  | .run => 0
  | .info _ => 1
  | .ptmu => 2
  | .cpmu => 2
  | .bnmu => 2

/-- May be read by one who has the locks `H`. -/
def MayRead (H : List Mutex) (l : Loc) : Prop := ∀ m, guard l = .both m → m ∈ H

/-- May be written by one who has the locks `H`. -/
def MayWrite (H : List Mutex) (l : Loc) : Prop :=
  guard l ≠ .never ∧ (∀ m, guard l = .both m → m ∈ H) ∧ ∀ m, guard l = .writes m → m ∈ H

/-- Who has the locks `H`, the latest first, may do this, and has the locks `H'` then. -/
inductive Typed : List Mutex → Stmt → List Mutex → Prop
  | skip {H : List Mutex} : Typed H .skip H
  | lock {H : List Mutex} {m : Mutex} (h : ∀ x ∈ H, rank x < rank m) : Typed H (.lock m) (m :: H)
  | unlock {H : List Mutex} {m : Mutex} (h : m ≠ Mutex.run) : Typed (m :: H) (.unlock m) H
  | read {H : List Mutex} {l : Loc} (h : MayRead H l) : Typed H (.read l) H
  | write {H : List Mutex} {l : Loc} (h : MayWrite H l) : Typed H (.write l) H
  | seq {H M H' : List Mutex} {a b : Stmt} (h : Typed H a M) (h' : Typed M b H') : Typed H (.seq a b) H'
  | choice {H H' : List Mutex} {a b : Stmt} (h : Typed H a H') (h' : Typed H b H') : Typed H (.choice a b) H'
  | loop {H : List Mutex} {a : Stmt} (h : Typed H a H) : Typed H (.loop a) H
  | pick {H H' : List Mutex} {f : Nat → Stmt} (h : ∀ n, Typed H (f n) H') : Typed H (.pick f) H'
  | spawn {H : List Mutex} {a : Stmt} (h : Typed [] a []) : Typed H (.spawn a) H

/-- Who has the locks `H` may do these one after the other, and at the end has none, but for the one that is never given
back. -/
inductive Chain : List Mutex → List Stmt → Prop
  | nil {H : List Mutex} (h : ∀ m ∈ H, m = Mutex.run) : Chain H []
  | cons {H H' : List Mutex} {a : Stmt} {k : List Stmt} (h : Typed H a H') (hk : Chain H' k) : Chain H (a :: k)

/-- The goroutine has the locks that its place in the program says. -/
structure Inv (s : State) : Prop where
  ok : ∀ t, ∃ H, Chain H (s.todo t) ∧ H.Nodup ∧ ∀ m, m ∈ H ↔ s.holder m = some t
  fresh : ∀ t, s.next ≤ t → s.todo t = [] ∧ ∀ m, s.holder m ≠ some t

theorem goesOn_self {s : State} {t : Nat} {k : List Stmt} : (s.goesOn t k).todo t = k := by simp [State.goesOn]
theorem goesOn_ne {s : State} {t u : Nat} {k : List Stmt} (h : u ≠ t) : (s.goesOn t k).todo u = s.todo u := by
  simp [State.goesOn, h]

theorem Inv.lt {s : State} (h : Inv s) {t : Nat} {a : Stmt} {k : List Stmt} (ht : s.todo t = a :: k) : t < s.next := by
  by_contra hc
  have := (h.fresh t (by omega)).1
  rw [ht] at this; cases this

/-- Steps that do nothing to the locks. -/
theorem Inv.goesOn {s : State} (h : Inv s) {t : Nat} {a : Stmt} {k k' : List Stmt} (ht : s.todo t = a :: k)
    (hk : ∀ H, Chain H (a :: k) → Chain H k') : Inv (s.goesOn t k') := by
  refine ⟨fun u => ?_, fun u hu => ?_⟩
  · obtain ⟨H, hc, hn, hm⟩ := h.ok u
    by_cases e : u = t
    · subst e
      exact ⟨H, by rw [goesOn_self]; exact hk H (ht ▸ hc), hn, hm⟩
    · exact ⟨H, by rw [goesOn_ne e]; exact hc, hn, hm⟩
  · have hlt := h.lt ht
    have hu' : s.next ≤ u := hu
    rw [goesOn_ne (by omega)]
    exact h.fresh u hu'

theorem inv_step {s s' : State} (h : Inv s) (hs : Step s s') : Inv s' := by
  cases hs with
  | skip ht => exact h.goesOn ht fun H hc => by cases hc with | cons h1 h2 => cases h1; exact h2
  | read ht => exact h.goesOn ht fun H hc => by cases hc with | cons h1 h2 => cases h1; exact h2
  | write ht => exact h.goesOn ht fun H hc => by cases hc with | cons h1 h2 => cases h1; exact h2
  | seq ht => exact h.goesOn ht fun H hc => by cases hc with | cons h1 h2 => cases h1 with | seq a b => exact .cons a (.cons b h2)
  | left ht => exact h.goesOn ht fun H hc => by cases hc with | cons h1 h2 => cases h1 with | choice a b => exact .cons a h2
  | right ht => exact h.goesOn ht fun H hc => by cases hc with | cons h1 h2 => cases h1 with | choice a b => exact .cons b h2
  | leave ht => exact h.goesOn ht fun H hc => by cases hc with | cons h1 h2 => cases h1; exact h2
  | again ht =>
    exact h.goesOn ht fun H hc => by
      cases hc with | cons h1 h2 => cases h1 with | loop a => exact .cons a (.cons (.loop a) h2)
  | pick n ht => exact h.goesOn ht fun H hc => by cases hc with | cons h1 h2 => cases h1 with | pick a => exact .cons (a n) h2
  | @lock t m k ht hm0 =>
    refine ⟨fun u => ?_, fun u hu => ?_⟩
    · obtain ⟨H, hc, hn, hm⟩ := h.ok u
      by_cases e : u = t
      · subst e
        rw [ht] at hc
        cases hc with
        | cons h1 h2 =>
          cases h1 with
          | lock hr =>
            refine ⟨m :: H, by simpa [State.goesOn] using h2, List.nodup_cons.2 ⟨fun hi => ?_, hn⟩, fun x => ?_⟩
            · exact absurd (hr m hi) (Nat.lt_irrefl _)
            · by_cases ex : x = m
              · subst ex; simp
              · simp [ex, hm x]
      · refine ⟨H, by simpa [State.goesOn, e] using hc, hn, fun x => ?_⟩
        by_cases ex : x = m
        · subst ex
          simp only [Function.update_self, Option.some.injEq]
          rw [hm x, hm0]
          exact ⟨nofun, fun h' => absurd h'.symm e⟩
        · simp [ex, hm x]
    · have hlt := h.lt ht
      have hu' : s.next ≤ u := hu
      have hne : u ≠ t := by omega
      refine ⟨by simpa [State.goesOn, hne] using (h.fresh u hu').1, fun x => ?_⟩
      by_cases ex : x = m
      · subst ex; simpa using fun h' => hne h'.symm
      · simpa [ex] using (h.fresh u hu').2 x
  | @unlock t m k ht =>
    have hh : s.holder m = some t := by
      obtain ⟨H, hc, hn, hm⟩ := h.ok t
      rw [ht] at hc
      cases hc with | cons h1 h2 => cases h1 with | unlock => exact (hm m).1 (by simp)
    refine ⟨fun u => ?_, fun u hu => ?_⟩
    · obtain ⟨H, hc, hn, hm⟩ := h.ok u
      by_cases e : u = t
      · subst e
        rw [ht] at hc
        cases hc with
        | cons h1 h2 =>
          cases h1 with
          | unlock hr =>
            refine ⟨_, by simpa [State.goesOn] using h2, (List.nodup_cons.1 hn).2, fun x => ?_⟩
            by_cases ex : x = m
            · subst ex; simpa using (List.nodup_cons.1 hn).1
            · have := hm x
              simpa [ex] using this
      · refine ⟨H, by simpa [State.goesOn, e] using hc, hn, fun x => ?_⟩
        by_cases ex : x = m
        · subst ex
          rw [hm x, hh]
          simpa using fun h' => e h'.symm
        · simp [ex, hm x]
    · have hlt := h.lt ht
      have hu' : s.next ≤ u := hu
      have hne : u ≠ t := by omega
      refine ⟨by simpa [State.goesOn, hne] using (h.fresh u hu').1, fun x => ?_⟩
      by_cases ex : x = m
      · subst ex; simp
      · simpa [ex] using (h.fresh u hu').2 x
  | @spawn t a k ht =>
    have hlt := h.lt ht
    refine ⟨fun u => ?_, fun u hu => ?_⟩
    · obtain ⟨H, hc, hn, hm⟩ := h.ok u
      by_cases e' : u = s.next
      · subst e'
        obtain ⟨H0, hc0, -, -⟩ := h.ok t
        rw [ht] at hc0
        cases hc0 with
        | cons h1 h2 =>
          cases h1 with
          | spawn ha =>
            refine ⟨[], by simpa [State.goesOn] using Chain.cons ha (.nil nofun), List.nodup_nil, fun x => ?_⟩
            simpa [State.goesOn] using (h.fresh s.next (Nat.le_refl _)).2 x
      · by_cases e : u = t
        · subst e
          rw [ht] at hc
          cases hc with
          | cons h1 h2 => cases h1 with | spawn ha => exact ⟨H, by simpa [State.goesOn, e'] using h2, hn, hm⟩
        · exact ⟨H, by simpa [State.goesOn, e, e'] using hc, hn, hm⟩
    · have hu' : s.next + 1 ≤ u := hu
      have h1 : u ≠ s.next := by omega
      have h2 : u ≠ t := by omega
      exact ⟨by simpa [State.goesOn, h1, h2] using (h.fresh u (by omega)).1, (h.fresh u (by omega)).2⟩

theorem seqs_nil {H : List Mutex} : Typed H (seqs []) H := .skip
theorem seqs_cons {H M H' : List Mutex} {a : Stmt} {l : List Stmt} (h : Typed H a M) (h' : Typed M (seqs l) H') :
    Typed H (seqs (a :: l)) H' := .seq h h'
theorem typed_opt {H : List Mutex} {l : List Stmt} (h : Typed H (seqs l) H) : Typed H (opt l) H := .choice .skip h
theorem typed_range {H : List Mutex} {m : Loc} {f : Nat → Stmt} (hm : MayRead H m) (h : ∀ n, Typed H (f n) H) :
    Typed H (range m f) H := .seq (.read hm) (.loop (.seq (.pick h) (.read hm)))

/-- Reading is allowed, writing is allowed, the order of locks is kept. -/
macro "allowed" : tactic =>
  `(tactic| first
    | (simp [MayRead, guard]; done)
    | (simp [MayWrite, guard]; done)
    | (simp [rank]; done)
    | (simp; done))

/-- Derivations. -/
macro "derive" : tactic =>
  `(tactic| (repeat' first
    | assumption
    | exact seqs_nil
    | exact Typed.skip
    | apply seqs_cons
    | apply typed_opt
    | refine typed_range ?_ fun _ => ?_
    | apply Typed.lock
    | apply Typed.unlock
    | apply Typed.read
    | apply Typed.write
    | apply Typed.seq
    | apply Typed.choice
    | apply Typed.loop
    | (apply Typed.pick; intro _)
    | apply Typed.spawn) <;> allowed)

theorem typed_ban : Typed [] ban [] := by unfold ban; derive
theorem typed_isBan : Typed [] isBan [] := by unfold isBan; derive
theorem typed_add : Typed [] add [] := by unfold add; derive
theorem typed_peers : Typed [] peers [] := by unfold peers; derive
theorem typed_peerInfo : Typed [] peerInfo [] := by unfold peerInfo; derive
theorem typed_relay (n : Nat) : Typed [] (relay n) [] := by unfold relay; derive
theorem typed_propagateBlock : Typed [] propagateBlock [] := by
  have := typed_relay
  unfold propagateBlock
  refine seqs_cons (.lock nofun) (seqs_cons (typed_range ?_ fun n => .spawn (this n)) ?_) <;> derive
theorem typed_process (n : Nat) : Typed [] (process n) [] := by
  have h1 := typed_peers
  have h2 := typed_add
  have h3 := typed_ban
  have h4 := typed_propagateBlock
  unfold process; derive
theorem typed_readHandler : Typed [] readHandler [] := by
  refine .loop (seqs_cons typed_peerInfo (seqs_cons (typed_opt (seqs_cons (.pick typed_process) seqs_nil)) seqs_nil))
theorem typed_writeHandler : Typed [] writeHandler [] := by unfold writeHandler; derive
theorem typed_watcher (n : Nat) : Typed [] (watcher n) [] := by unfold watcher; derive
theorem typed_newPeer (n : Nat) : Typed [info n, Mutex.run] newPeer [info n, Mutex.run] := by unfold newPeer; derive
theorem typed_established (n : Nat) : Typed [info n, Mutex.run] (established n) [info n, Mutex.run] := by
  have h1 := typed_writeHandler
  have h2 := typed_readHandler
  have h3 := typed_watcher n
  unfold established; derive
theorem typed_connectPeer : Typed [Mutex.run] connectPeer [Mutex.run] := by
  have h1 := typed_newPeer
  have h2 := typed_established
  unfold connectPeer; derive
theorem typed_notConnected : Typed [Mutex.run] notConnected [Mutex.run] := by unfold notConnected; derive
theorem typed_closer (n : Nat) : Typed [] (closer n) [] := by unfold closer; derive
theorem typed_run : Typed [Mutex.run] run [Mutex.run] := by
  have h1 := typed_notConnected
  have h2 := typed_connectPeer
  have h3 := typed_closer
  unfold run
  refine seqs_cons (.loop (.seq h1 h2)) (seqs_cons (.lock ?_) (seqs_cons (typed_range ?_ fun n => .spawn (h3 n)) ?_)) <;>
    derive
theorem typed_calls : Typed [] calls [] := by
  have h1 := typed_ban
  have h2 := typed_isBan
  have h3 := typed_add
  have h4 := typed_peers
  have h5 := typed_peerInfo
  have h6 := typed_propagateBlock
  unfold calls; derive
theorem typed_main : Typed [Mutex.run] main [Mutex.run] := .seq (.spawn (.loop (.spawn typed_calls))) typed_run

theorem inv_start : Inv start := by
  refine ⟨fun t => ?_, fun t ht => ?_⟩
  · by_cases e : t = 0
    · subst e
      refine ⟨[Mutex.run], .cons typed_main (.nil (by simp)), by simp, fun m => ?_⟩
      by_cases em : m = Mutex.run <;> simp [start, em]
    · refine ⟨[], by simpa [start, e] using Chain.nil (H := []) nofun, by simp, fun m => ?_⟩
      by_cases em : m = Mutex.run
      · simp only [start, em, if_true, List.not_mem_nil, false_iff, Option.some.injEq]
        exact fun h => e h.symm
      · simp [start, em]
  · have ht' : 1 ≤ t := ht
    have e : t ≠ 0 := by omega
    refine ⟨by simp [start, e], fun m => ?_⟩
    by_cases em : m = Mutex.run
    · simp only [start, em, if_true, ne_eq, Option.some.injEq]
      exact fun h => e h.symm
    · simp [start, em]

theorem inv_reach {s : State} (h : Reach s) : Inv s := by
  induction h with
  | start => exact inv_start
  | step _ hs ih => exact inv_step ih hs

theorem Inv.reads {s : State} (h : Inv s) {t : Nat} {l : Loc} (hr : Reads s t l) {m : Mutex} (hg : guard l = .both m) :
    s.holder m = some t := by
  obtain ⟨k, hk⟩ := hr
  obtain ⟨H, hc, -, hm⟩ := h.ok t
  rw [hk] at hc
  cases hc with | cons h1 _ => cases h1 with | read hp => exact (hm m).1 (hp m hg)

theorem Inv.writes {s : State} (h : Inv s) {t : Nat} {l : Loc} (hr : Writes s t l) :
    guard l ≠ .never ∧ (∀ m, guard l = .both m → s.holder m = some t) ∧ ∀ m, guard l = .writes m → s.holder m = some t := by
  obtain ⟨k, hk⟩ := hr
  obtain ⟨H, hc, -, hm⟩ := h.ok t
  rw [hk] at hc
  cases hc with
  | cons h1 _ =>
    cases h1 with
    | write hp => exact ⟨hp.1, fun m hg => (hm m).1 (hp.2.1 m hg), fun m hg => (hm m).1 (hp.2.2 m hg)⟩

theorem same {s : State} {m : Mutex} {t u : Nat} (h1 : s.holder m = some t) (h2 : s.holder m = some u) : t = u :=
  Option.some.inj (h1.symm.trans h2)

theorem Inv.no_race {s : State} (h : Inv s) {l : Loc} {m : Mutex} (hg : guard l = .both m) : ¬ Race s l := by
  rintro ⟨t, u, hne, hw, hr | hr⟩
  · exact hne (same ((h.writes hw).2.1 m hg) (h.reads hr hg))
  · exact hne (same ((h.writes hw).2.1 m hg) ((h.writes hr).2.1 m hg))

theorem Inv.no_write {s : State} (h : Inv s) {l : Loc} (hg : guard l = .never) (t : Nat) : ¬ Writes s t l :=
  fun hw => (h.writes hw).1 hg

theorem Inv.no_write_race {s : State} (h : Inv s) {l : Loc} {m : Mutex} (hg : guard l = .writes m) : ¬ WriteRace s l := by
  rintro ⟨t, u, hne, hw, hr⟩
  exact hne (same ((h.writes hw).2.2 m hg) ((h.writes hr).2.2 m hg))

/-- Who waits for a lock has only locks that come before it. -/
theorem Inv.waits {s : State} (h : Inv s) {t : Nat} {m : Mutex} {k : List Stmt} (ht : s.todo t = .lock m :: k) {x : Mutex}
    (hx : s.holder x = some t) : rank x < rank m := by
  obtain ⟨H, hc, -, hm⟩ := h.ok t
  rw [ht] at hc
  cases hc with | cons h1 _ => cases h1 with | lock hr => exact hr x ((hm x).2 hx)

/-- Who gives a lock back has it. -/
theorem Inv.unlocks {s : State} (h : Inv s) {t : Nat} {m : Mutex} {k : List Stmt} (ht : s.todo t = .unlock m :: k) :
    s.holder m = some t := by
  obtain ⟨H, hc, -, hm⟩ := h.ok t
  rw [ht] at hc
  cases hc with | cons h1 _ => cases h1 with | unlock => exact (hm m).1 (by simp)

/-- Who has a lock, other than the one that is never given back, is not at its end. -/
theorem Inv.alive {s : State} (h : Inv s) {t : Nat} {m : Mutex} (hm : s.holder m = some t) (hr : m ≠ Mutex.run) :
    s.todo t ≠ [] := by
  intro e
  obtain ⟨H, hc, -, hH⟩ := h.ok t
  rw [e] at hc
  cases hc with | nil hn => exact hr (hn m ((hH m).2 hm))

/-- Along a row of goroutines that wait for each other, the locks come ever later. -/
theorem Inv.row {s : State} (h : Inv s) {t u : Nat} (hw : Relation.TransGen (WaitsFor s) t u) :
    ∀ x, s.holder x = some t → ∃ y, s.holder y = some u ∧ rank x < rank y := by
  induction hw with
  | single hs =>
    intro x hx
    obtain ⟨m, k, hk, hm⟩ := hs
    exact ⟨m, hm, h.waits hk hx⟩
  | tail _ hs ih =>
    intro x hx
    obtain ⟨y, hy, hlt⟩ := ih x hx
    obtain ⟨m, k, hk, hm⟩ := hs
    exact ⟨m, hm, Nat.lt_trans hlt (h.waits hk hy)⟩

theorem top {s : State} {t u : Nat} (hw : Relation.TransGen (WaitsFor s) t u) :
    ∃ y, s.holder y = some u := by
  cases hw with
  | single hs => obtain ⟨m, _, _, hm⟩ := hs; exact ⟨m, hm⟩
  | tail _ hs => obtain ⟨m, _, _, hm⟩ := hs; exact ⟨m, hm⟩

theorem Inv.no_ring {s : State} (h : Inv s) (t : Nat) : ¬ Relation.TransGen (WaitsFor s) t t := by
  intro hw
  have key : ∀ d x, s.holder x = some t → 3 ≤ rank x + d → False := by
    intro d
    induction d with
    | zero => intro x _ hr; cases x <;> simp [rank] at hr
    | succ d ih =>
      intro x hx hr
      obtain ⟨y, hy, hlt⟩ := h.row hw x hx
      exact ih y hy (by omega)
  obtain ⟨y, hy⟩ := top hw
  exact key 3 y hy (by omega)

/-- A goroutine that waits for a lock waits, directly or through others, for one that does not wait. -/
theorem Inv.first {s : State} (h : Inv s) {t u : Nat} (hw : WaitsFor s t u) :
    ∃ v, Relation.ReflTransGen (WaitsFor s) u v ∧ ∀ x, ¬ WaitsFor s v x := by
  obtain ⟨m, k, hk, hm⟩ := hw
  have key : ∀ d u m, s.holder m = some u → 3 ≤ rank m + d →
      ∃ v, Relation.ReflTransGen (WaitsFor s) u v ∧ ∀ x, ¬ WaitsFor s v x := by
    intro d
    induction d with
    | zero => intro u x _ hr; cases x <;> simp [rank] at hr
    | succ d ih =>
      intro u x hx hr
      by_cases hv : ∃ w, WaitsFor s u w
      · obtain ⟨w, hw⟩ := hv
        obtain ⟨y, k', hk', hy⟩ := hw
        have hlt := h.waits hk' hx
        obtain ⟨v, h1, h2⟩ := ih w y hy (by omega)
        exact ⟨v, .head ⟨y, k', hk', hy⟩ h1, h2⟩
      · exact ⟨u, .refl, fun x hx => hv ⟨x, hx⟩⟩
  exact key 3 u m hm (by omega)

/-- What is done next, with a decision where one is to be made. -/
def front : Nat → List Stmt → List Stmt
  | 0, k => k
  | _, [] => []
  | f + 1, a :: k => match a with
    | .skip => front f k
    | .seq a b => front f (a :: b :: k)
    | _ => a :: k

/-- The goroutine does its next step; `d` decides. -/
def act (s : State) (t d : Nat) : Option State :=
  match front 16 (s.todo t) with
  | [] => none
  | a :: k => match a with
    | .skip => none
    | .seq _ _ => none
    | .lock m => if s.holder m = none then some { s.goesOn t k with holder := Function.update s.holder m (some t) } else none
    | .unlock m => some { s.goesOn t k with holder := Function.update s.holder m none }
    | .read _ => some (s.goesOn t k)
    | .write _ => some (s.goesOn t k)
    | .choice a b => some (s.goesOn t ((if d = 0 then a else b) :: k))
    | .loop a => some (s.goesOn t (if d = 0 then k else a :: .loop a :: k))
    | .pick f => some (s.goesOn t (f d :: k))
    | .spawn a => some { (s.goesOn t k).goesOn s.next [a] with next := s.next + 1 }

theorem goesOn_goesOn {s : State} {t : Nat} {k k' : List Stmt} : (s.goesOn t k).goesOn t k' = s.goesOn t k' := by
  simp [State.goesOn]

theorem goesOn_same {s : State} {t : Nat} : s.goesOn t (s.todo t) = s := by simp [State.goesOn]

theorem front_reach (f : Nat) : ∀ {s : State} {t : Nat}, Reach s → Reach (s.goesOn t (front f (s.todo t))) := by
  induction f with
  | zero => intro s t h; simpa [front, goesOn_same] using h
  | succ f ih =>
    intro s t h
    match hk : s.todo t with
    | [] => simp only [front]; rw [← hk, goesOn_same]; exact h
    | a :: k =>
      have base : Reach (s.goesOn t (a :: k)) := by rw [← hk, goesOn_same]; exact h
      cases a with
      | skip =>
        have := ih (t := t) (Reach.step h (.skip hk))
        rwa [goesOn_self, goesOn_goesOn] at this
      | seq a b =>
        have := ih (t := t) (Reach.step h (.seq hk))
        rwa [goesOn_self, goesOn_goesOn] at this
      | _ => exact base

theorem act_reach {s s' : State} {t d : Nat} (h : Reach s) (ha : act s t d = some s') : Reach s' := by
  have hf := front_reach 16 (t := t) h
  unfold act at ha
  split at ha
  · cases ha
  · rename_i a k hk
    rw [hk] at hf
    have ht : (s.goesOn t (a :: k)).todo t = a :: k := goesOn_self
    split at ha
    · cases ha
    · cases ha
    · split at ha
      · rename_i hm
        cases ha
        simpa [State.goesOn] using Reach.step hf (.lock ht hm)
      · cases ha
    · cases ha; simpa [State.goesOn] using Reach.step hf (.unlock ht)
    · cases ha; simpa [State.goesOn] using Reach.step hf (.read ht)
    · cases ha; simpa [State.goesOn] using Reach.step hf (.write ht)
    · cases ha
      by_cases hd : d = 0
      · simpa [State.goesOn, hd] using Reach.step hf (.left ht)
      · simpa [State.goesOn, hd] using Reach.step hf (.right ht)
    · cases ha
      by_cases hd : d = 0
      · simpa [State.goesOn, hd] using Reach.step hf (.leave ht)
      · simpa [State.goesOn, hd] using Reach.step hf (.again ht)
    · cases ha; simpa [State.goesOn] using Reach.step hf (.pick d ht)
    · cases ha; simpa [State.goesOn] using Reach.step hf (.spawn ht)

/-- A schedule: goroutines and decisions. -/
def drive : State → List (Nat × Nat) → Option State
  | s, [] => some s
  | s, (t, d) :: l => (act s t d).bind fun s' => drive s' l

theorem drive_reach {s s' : State} {l : List (Nat × Nat)} (h : Reach s) (hd : drive s l = some s') : Reach s' := by
  induction l generalizing s with
  | nil => cases hd; exact h
  | cons x l ih =>
    obtain ⟨t, d⟩ := x
    simp only [drive] at hd
    match ha : act s t d with
    | none => rw [ha] at hd; cases hd
    | some s1 => rw [ha] at hd; exact ih (act_reach h ha) hd

/-- What goroutine `t` does next. -/
def State.head (s : State) (t : Nat) : Option Stmt := (front 16 (s.todo t)).head?

/-- A schedule after which two goroutines are about to do `a` and `b`. -/
theorem drive_two {s : State} {l : List (Nat × Nat)} {t u : Nat} {a b : Stmt} (h : Reach s)
    (hd : ((drive s l).bind fun s' => s'.head t) = some a) (hd' : ((drive s l).bind fun s' => s'.head u) = some b)
    (hne : t ≠ u) : ∃ s', Reach s' ∧ (∃ k, s'.todo t = a :: k) ∧ ∃ k, s'.todo u = b :: k := by
  match hs : drive s l with
  | none => rw [hs] at hd; cases hd
  | some s1 =>
    rw [hs] at hd hd'
    simp only [Option.bind_some, State.head] at hd hd'
    have h1 := front_reach 16 (t := t) (drive_reach h hs)
    have h2 := front_reach 16 (t := u) h1
    rw [goesOn_ne hne.symm] at h2
    refine ⟨_, h2, ?_, ?_⟩
    · rw [goesOn_ne hne, goesOn_self]
      match hf : front 16 (s1.todo t) with
      | [] => rw [hf] at hd; cases hd
      | x :: k => rw [hf] at hd; cases hd; exact ⟨k, rfl⟩
    · rw [goesOn_self]
      match hf : front 16 (s1.todo u) with
      | [] => rw [hf] at hd'; cases hd'
      | x :: k => rw [hf] at hd'; cases hd'; exact ⟨k, rfl⟩

/-- A schedule after which one goroutine waits for a lock that the other has. -/
theorem drive_wait {s : State} {l : List (Nat × Nat)} {t u : Nat} {m : Mutex} (h : Reach s)
    (hd : ((drive s l).bind fun s' => s'.head t) = some (.lock m))
    (hm : ((drive s l).bind fun s' => s'.holder m) = some u) : ∃ s', Reach s' ∧ WaitsFor s' t u := by
  match hs : drive s l with
  | none => rw [hs] at hd; cases hd
  | some s1 =>
    rw [hs] at hd hm
    simp only [Option.bind_some, State.head] at hd hm
    refine ⟨_, front_reach 16 (t := t) (drive_reach h hs), m, ?_⟩
    rw [goesOn_self]
    match hf : front 16 (s1.todo t) with
    | [] => rw [hf] at hd; cases hd
    | x :: k => rw [hf] at hd; cases hd; exact ⟨k, rfl, hm⟩

end Gringo.Locks
