import Verif.Proofs.Locks
/-
C136, C137, C138: locks and shared memory.
-/
namespace Gringo.Props
open Gringo.Locks

/-- C136. Whatever the goroutines do, no two of them access one of the three tables at the same time: not only is there no
writer beside another, there is no second reader either. So Go's check for concurrent access to a map never ends the
process. -/
theorem C136_maps (s : State) (h : Reach s) (l : Loc) (hl : l = .peersTable ∨ l = .connectedPeers ∨ l = .bannedPeers)
    (t u : Nat) (ht : Reads s t l ∨ Writes s t l) (hu : Reads s u l ∨ Writes s u l) : t = u := by
  have hi := inv_reach h
  obtain ⟨m, hg⟩ : ∃ m, guard l = .both m := by rcases hl with rfl | rfl | rfl <;> exact ⟨_, rfl⟩
  have hold : ∀ v, Reads s v l ∨ Writes s v l → s.holder m = some v := fun v hv =>
    hv.elim (fun h => hi.reads h hg) fun h => (hi.writes h).2.1 m hg
  exact same (hold t ht) (hold u hu)

/-- C137, the part that holds. No goroutine ever writes what the chain answers from, so reading it without a lock is safe.
There is no data race at the nonces (as long as `Run` is called once), nor at two fields of the records. The recorded peer,
height, total difficulty and capabilities are never written by two goroutines at once; a race there has one writer. -/
theorem C137_fields_partial (s : State) (h : Reach s) :
    (∀ t, ¬ Writes s t .chain) ∧ ¬ Race s .nonces ∧
    ∀ n, ¬ Race s (.protocolVersion n) ∧ ¬ Race s (.lastConn n) ∧ ¬ WriteRace s (.peer n) ∧ ¬ WriteRace s (.height n) ∧
      ¬ WriteRace s (.totalDifficulty n) ∧ ¬ WriteRace s (.capabilities n) := by
  have hi := inv_reach h
  exact ⟨hi.no_write rfl, hi.no_race rfl, fun n => ⟨hi.no_race rfl, hi.no_race rfl, hi.no_write_race rfl,
    hi.no_write_race rfl, hi.no_write_race rfl, hi.no_write_race rfl⟩⟩

/-- C137, the part that holds, for a whole section: while a goroutine has the lock of a record, no other one changes the
record, but for its status; while it has the lock of a table, no other one changes the table. So what `ProcessMessage`,
`connectPeer` or `Add` looks at between taking the lock and giving it back is what it changes. -/
theorem C137_sections_partial (s : State) (h : Reach s) (t u : Nat) (hne : u ≠ t) :
    (∀ n, s.holder (.info n) = some t → ∀ l, l = .peer n ∨ l = .height n ∨ l = .totalDifficulty n ∨ l = .capabilities n ∨
      l = .protocolVersion n ∨ l = .lastConn n → ¬ Writes s u l) ∧
    (s.holder .ptmu = some t → ¬ Writes s u .peersTable) ∧ (s.holder .cpmu = some t → ¬ Writes s u .connectedPeers) ∧
    (s.holder .bnmu = some t → ¬ Writes s u .bannedPeers) := by
  have hi := inv_reach h
  refine ⟨fun n hn l hl hw => hne ?_, fun hm hw => hne (same ((hi.writes hw).2.1 _ rfl) hm),
    fun hm hw => hne (same ((hi.writes hw).2.1 _ rfl) hm), fun hm hw => hne (same ((hi.writes hw).2.1 _ rfl) hm)⟩
  rcases hl with rfl | rfl | rfl | rfl | rfl | rfl
  · exact same ((hi.writes hw).2.2 _ rfl) hn
  · exact same ((hi.writes hw).2.2 _ rfl) hn
  · exact same ((hi.writes hw).2.2 _ rfl) hn
  · exact same ((hi.writes hw).2.2 _ rfl) hn
  · exact same ((hi.writes hw).2.1 _ rfl) hn
  · exact same ((hi.writes hw).2.1 _ rfl) hn

/-! Schedules for what does not hold: pairs of a goroutine and what it decides. -/

/-- Goroutine `t` does `k` steps. -/
def steps (t k : Nat) : List (Nat × Nat) := List.replicate k (t, 0)

/-- `Run` connects to the peer of record `n`, up to the place where the handshake is done. -/
def dial (n : Nat) : List (Nat × Nat) :=
  -- `notConnected`: lock, first entry, its status, next round, out
  [(0, 1)] ++ steps 0 2 ++ [(0, 1), (0, n)] ++ steps 0 6 ++
  -- `connectPeer`: the counter, the table, the record, its lock, its status twice
  [(0, 1), (0, 0), (0, 1)] ++ steps 0 3 ++ [(0, 1), (0, n), (0, 0), (0, 0), (0, 1), (0, 0)] ++
  -- `NewPeer`, and neither of its errors
  [(0, 1), (0, 1)] ++ steps 0 3 ++ [(0, 1), (0, 1)]

/-- All of `connectPeer`; it starts three goroutines, the writer, the reader and the one that waits for the end. -/
def dialled (n : Nat) : List (Nat × Nat) := dial n ++ steps 0 16

/-- The reader of a connection, goroutine 3, handles a block; goroutine 5 is started to send it to the peer of record `n`. -/
def relayed (n : Nat) : List (Nat × Nat) :=
  [(3, 1)] ++ steps 3 3 ++ [(3, 1), (3, n)] ++ List.replicate 7 (3, 1) ++ steps 3 8 ++
  [(3, 1), (3, 0), (3, 0), (3, 1), (3, n)] ++ steps 3 4

/-- The reader handles a Ping, up to the place where it has the lock of the record. -/
def pinged (n : Nat) : List (Nat × Nat) := [(3, 1)] ++ steps 3 3 ++ [(3, 1), (3, n)] ++ steps 3 2

/-- C137, what does not hold. There are data races, with schedules that the node can come to:
* the recorded height and total difficulty: a Ping is handled while a goroutine of `PropagateBlock` looks at the record;
* the recorded peer: the pool connects again while a goroutine of `PropagateBlock` looks at the record;
* the recorded capabilities: the pool connects while `Peers` looks at the record;
* the status: two writers, the pool that connects and `Ban`;
* the number of connections: two writers, the pool that connects and the goroutine that waits for the end of a connection;
* the lists of a block that is sent to two peers: two writers that sort it. -/
theorem C137_refuted :
    (∃ s n, Reach s ∧ Race s (.height n)) ∧ (∃ s n, Reach s ∧ Race s (.totalDifficulty n)) ∧
    (∃ s n, Reach s ∧ Race s (.peer n)) ∧ (∃ s n, Reach s ∧ Race s (.capabilities n)) ∧
    (∃ s n, Reach s ∧ WriteRace s (.status n)) ∧ (∃ s, Reach s ∧ WriteRace s .connected) ∧
    ∃ s b, Reach s ∧ WriteRace s (.lists b) := by
  refine ⟨?_, ?_, ?_, ?_, ?_, ?_, ?_⟩
  · obtain ⟨s, hs, h1, h2⟩ := drive_two (l := (0, 0) :: dialled 7 ++ relayed 7 ++ pinged 7 ++ [(3, 0)]) (t := 3) (u := 5)
      (a := .write (.height 7)) (b := .read (.height 7)) .start rfl rfl (by decide)
    exact ⟨s, 7, hs, 3, 5, by decide, h1, .inl h2⟩
  · obtain ⟨s, hs, h1, h2⟩ := drive_two (l := (0, 0) :: dialled 7 ++ relayed 7 ++ pinged 7 ++ [(5, 0), (5, 1)]) (t := 3)
      (u := 5) (a := .write (.totalDifficulty 7)) (b := .read (.totalDifficulty 7)) .start rfl rfl (by decide)
    exact ⟨s, 7, hs, 3, 5, by decide, h1, .inl h2⟩
  · -- the connection ends, goroutine 4 says so, the pool connects again
    obtain ⟨s, hs, h1, h2⟩ := drive_two
      (l := (0, 0) :: dialled 7 ++ relayed 7 ++ [(5, 0), (5, 0), (5, 1)] ++ steps 4 8 ++ dial 7 ++ steps 0 2) (t := 0)
      (u := 5) (a := .write (.peer 7)) (b := .read (.peer 7)) .start rfl rfl (by decide)
    exact ⟨s, 7, hs, 0, 5, by decide, h1, .inl h2⟩
  · -- goroutine 1 calls `Peers` in goroutine 2
    obtain ⟨s, hs, h1, h2⟩ := drive_two
      (l := (0, 0) :: dial 7 ++ steps 0 8 ++ [(1, 1), (1, 0), (2, 1), (2, 1), (2, 1)] ++ steps 2 3 ++
        [(2, 1), (2, 7), (2, 0), (2, 1), (2, 0), (2, 1)]) (t := 0) (u := 2)
      (a := .write (.capabilities 7)) (b := .read (.capabilities 7)) .start rfl rfl (by decide)
    exact ⟨s, 7, hs, 0, 2, by decide, h1, .inl h2⟩
  · -- goroutine 1 calls `Ban` in goroutine 2
    obtain ⟨s, hs, h1, h2⟩ := drive_two
      (l := (0, 0) :: dial 7 ++ steps 0 3 ++ [(1, 1), (1, 0), (2, 1)] ++ steps 2 4 ++ [(2, 1), (2, 7)]) (t := 0) (u := 2)
      (a := .write (.status 7)) (b := .write (.status 7)) .start rfl rfl (by decide)
    exact ⟨s, 7, hs, 0, 2, by decide, h1, h2⟩
  · obtain ⟨s, hs, h1, h2⟩ := drive_two (l := (0, 0) :: dialled 7 ++ steps 4 4 ++ dial 8 ++ steps 0 1) (t := 0) (u := 4)
      (a := .write .connected) (b := .write .connected) .start rfl rfl (by decide)
    exact ⟨s, hs, 0, 4, by decide, h1, h2⟩
  · -- goroutines 2 and 5 are the writers of two connections
    obtain ⟨s, hs, h1, h2⟩ := drive_two
      (l := (0, 0) :: dialled 7 ++ dialled 8 ++ [(2, 1), (2, 1), (2, 3), (2, 0), (5, 1), (5, 1), (5, 3), (5, 0)]) (t := 2)
      (u := 5) (a := .write (.lists 3)) (b := .write (.lists 3)) .start rfl rfl (by decide)
    exact ⟨s, 3, hs, 2, 5, by decide, h1, h2⟩

/-- C138. The locks by themselves do not stop the node: no goroutine waits for a lock that it has, and there is no ring of
goroutines each of which waits for a lock that the next one has. A goroutine that waits for a lock waits, directly or
through others, for one that does not wait for a lock. -/
theorem C138_no_ring (s : State) (h : Reach s) :
    (∀ t, ¬ Relation.TransGen (WaitsFor s) t t) ∧
    ∀ t u, WaitsFor s t u → ∃ v, Relation.ReflTransGen (WaitsFor s) u v ∧ ∀ x, ¬ WaitsFor s v x :=
  ⟨(inv_reach h).no_ring, fun _ _ hw => (inv_reach h).first hw⟩

/-- C138. No goroutine ends with a lock: who has a lock still has something to do. A lock that is given back is one that the
goroutine has. -/
theorem C138_given_back (s : State) (h : Reach s) (t : Nat) (m : Mutex) (hr : m ≠ .run) :
    (s.holder m = some t → s.todo t ≠ []) ∧ ∀ k, s.todo t = .unlock m :: k → s.holder m = some t :=
  ⟨fun hm => (inv_reach h).alive hm hr, fun _ ht => (inv_reach h).unlocks ht⟩

/-- The hypotheses are met: goroutine 2 calls `Peers` and reads the table. -/
example : ∃ s, Reach s ∧ Reads s 2 .peersTable := by
  obtain ⟨s, hs, h1, -⟩ := drive_two
    (l := [(0, 0), (1, 1), (1, 0), (2, 1), (2, 1), (2, 1), (2, 0), (2, 0)]) (t := 2) (u := 1)
    (a := .read .peersTable) (b := .loop (.spawn calls)) .start rfl rfl (by decide)
  exact ⟨s, hs, h1⟩

/-- Goroutine 3 calls `PeerInfo` meanwhile, and waits. -/
example : ∃ s, Reach s ∧ WaitsFor s 3 2 :=
  drive_wait (l := [(0, 0), (1, 1), (1, 0), (1, 1), (1, 0), (2, 1), (2, 1), (2, 1), (2, 0), (2, 0), (3, 1), (3, 1), (3, 1),
    (3, 1), (3, 0)]) (m := .ptmu) .start rfl rfl

end Gringo.Props
