import Verif.Props.Silent
import Verif.Props.Session
/-
C109: what the pool records about a peer is what the peer told.
-/
namespace Gringo.Props
open Gringo.Spec Gringo.P2P Gringo.PoolRun

/-- What a remote peer tells in the shake that ends the handshake. -/
def toldIn (sh : Shake) : Told := ⟨sh.version, sh.totalDifficulty, sh.capabilities⟩

/-- **C109, at the end of a handshake.** In every reachable state in which the handshake with `addr` on the connection
`c` has ended with the right version, and whatever the remote peer told, the pool can go on (and from there
`C109_changes` says that this is the only way on) to a state in which the entry of `addr` has exactly the version,
difficulty and capabilities that were told, height 0, that connection and the present time, and every other entry is
as it was. -/
theorem C109_shake (s : Pool) (h : Reachable Pool.new s) (addr : String) (c : Nat) (n : Int)
    (hl : s.loop = .greeting addr c) (hn : s.seen = some n) (sh : Shake) (hv : sh.version = 1) (now : Time) :
    ∃ s', Step s s' ∧ s'.loop = .announcing addr ∧
      s'.table.find addr = some
        { status := .connected, peer := some c, protocolVersion := 1, height := 0,
          totalDifficulty := sh.totalDifficulty, capabilities := sh.capabilities, lastConn := now } ∧
      ∀ other, other ≠ addr → s'.table.find other = s.table.find other := by
  have hk := (find_isSome_iff s.table addr).2 ((inv_reachable h).known.loop addr (by rw [hl]; rfl))
  obtain ⟨i, hi⟩ := Option.isSome_iff_exists.1 hk
  refine ⟨_, .register s addr c (toldIn sh) now n hl hv hn, rfl, ?_, fun other hne => ?_⟩
  · show (s.table.update addr _).find addr = _
    rw [find_update, if_pos rfl, hi, Option.map_some]
    simp only [registered, toldIn, hv]
  · show (s.table.update addr _).find other = _
    rw [find_update, if_neg hne]

/-- **C109, every step.** The record of a peer (version, height, difficulty, capabilities, time of connection) changes
in two ways only: when a handshake with that address ends with the right version, and then the height is 0; or when a
message from a connection to that address is handled, and then only height and difficulty change. Failed dials, bans,
disconnects, other peers and callers of the pool change nothing of it. -/
theorem C109_changes (s s' : Pool) (hs : Step s s') (a : String) (i : PeerInfo) (hi : s.table.find a = some i) :
    ∃ i', s'.table.find a = some i' ∧
      (i'.protocolVersion = i.protocolVersion ∧ i'.height = i.height ∧ i'.totalDifficulty = i.totalDifficulty ∧
          i'.capabilities = i.capabilities ∧ i'.lastConn = i.lastConn ∧ i'.peer = i.peer ∨
       (∃ c, s.loop = .greeting a c ∧ s.seen ≠ none ∧ s'.loop = .announcing a ∧ i'.peer = some c ∧
          i'.status = .connected ∧ i'.protocolVersion = 1 ∧ i'.height = 0) ∨
       (∃ x ∈ s.links, x.addr = a ∧ x.waiting = true ∧ i'.status = i.status ∧ i'.peer = i.peer ∧
          i'.protocolVersion = i.protocolVersion ∧ i'.capabilities = i.capabilities ∧ i'.lastConn = i.lastConn)) := by
  have upd : ∀ (b : String) (f : PeerInfo → PeerInfo),
      (s.table.update b f).find a = if a = b then some (f i) else some i := by
    intro b f
    rw [find_update]
    split <;> simp [hi]
  have status : ∀ (b : String) (st : PeerStatus), ∃ i', (s.table.update b (setStatus st)).find a = some i' ∧
      (i'.protocolVersion = i.protocolVersion ∧ i'.height = i.height ∧ i'.totalDifficulty = i.totalDifficulty ∧
          i'.capabilities = i.capabilities ∧ i'.lastConn = i.lastConn ∧ i'.peer = i.peer) := by
    intro b st
    rw [upd]
    split
    · exact ⟨_, rfl, rfl, rfl, rfl, rfl, rfl, rfl⟩
    · exact ⟨_, rfl, rfl, rfl, rfl, rfl, rfl, rfl⟩
  cases hs with
  | noAnswer b h => obtain ⟨i', e, h'⟩ := status b .failedConn; exact ⟨i', e, .inl h'⟩
  | noShake b c h hn => obtain ⟨i', e, h'⟩ := status b .failedConn; exact ⟨i', e, .inl h'⟩
  | mark l r x hx h hw hl => obtain ⟨i', e, h'⟩ := status x.addr .disconnected; exact ⟨i', e, .inl h'⟩
  | banSelf b l r x hx h hw hb => obtain ⟨i', e, h'⟩ := status b .banned; exact ⟨i', e, .inl h'⟩
  | banOther b i0 h => obtain ⟨i', e, h'⟩ := status b .banned; exact ⟨i', e, .inl h'⟩
  | closeDown l r b i0 x hx hl ht hp hx' hu =>
    obtain ⟨i', e, h'⟩ := status b .disconnected; exact ⟨i', e, .inl h'⟩
  | closed l r b x hx hx' hw => obtain ⟨i', e, h'⟩ := status b .disconnected; exact ⟨i', e, .inl h'⟩
  | add b resolve hr =>
    obtain ⟨l, e, -⟩ := add_prefix resolve s.table b
    refine ⟨i, ?_, .inl ⟨rfl, rfl, rfl, rfl, rfl, rfl⟩⟩
    show (P2P.add resolve s.table b).find a = some i
    rw [e]
    unfold Table.find at hi ⊢
    rw [List.lookup_append, hi]; rfl
  | register b c told now n h hv hn =>
    by_cases e : a = b
    · subst e
      refine ⟨registered c now told i, ?_, .inr (.inl ⟨c, h, by rw [hn]; simp, rfl, rfl, rfl, hv, rfl⟩)⟩
      show (s.table.update a _).find a = _
      rw [upd, if_pos rfl]
    · refine ⟨i, ?_, .inl ⟨rfl, rfl, rfl, rfl, rfl, rfl⟩⟩
      show (s.table.update b _).find a = _
      rw [upd, if_neg e]
  | record l r x td hh hx h hl =>
    by_cases e : a = x.addr
    · refine ⟨{ i with totalDifficulty := td, height := hh }, ?_,
        .inr (.inr ⟨x, by rw [hx]; simp, e.symm, h, rfl, rfl, rfl, rfl, rfl⟩)⟩
      dsimp only
      rw [upd, if_pos e]
    · refine ⟨i, ?_, .inl ⟨rfl, rfl, rfl, rfl, rfl, rfl⟩⟩
      dsimp only
      rw [upd, if_neg e]
  | _ => exact ⟨i, hi, .inl ⟨rfl, rfl, rfl, rfl, rfl, rfl⟩⟩

/-- What is true of every entry: never connected and nothing known, or connected at least once, with the protocol
version of the node. -/
def Recorded (i : PeerInfo) : Prop :=
  (i.peer = none ∧ i.protocolVersion = 0 ∧ i.height = 0 ∧ i.totalDifficulty = 0 ∧ i.capabilities = 0) ∨
  (i.peer ≠ none ∧ i.protocolVersion = 1)

/-- Every address with a connection, past or present, has an entry with a connection. -/
theorem links_have_peer (s : Pool) (h : Reachable Pool.new s) :
    ∀ x ∈ s.links, ∃ i, s.table.find x.addr = some i ∧ i.peer ≠ none := by
  induction h with
  | here => intro x hx; cases hx
  | @next s s' hr hp hs ih =>
    have keep : ∀ a i, s.table.find a = some i → i.peer ≠ none → ∃ i', s'.table.find a = some i' ∧ i'.peer ≠ none := by
      intro a i hf hi
      obtain ⟨i', e, h'⟩ := C109_changes s s' hs a i hf
      refine ⟨i', e, ?_⟩
      rcases h' with ⟨-, -, -, -, -, h6⟩ | ⟨c, -, -, -, h4, -, -, -⟩ | ⟨x, -, -, -, -, h5, -, -, -⟩
      · rw [h6]; exact hi
      · rw [h4]; simp
      · rw [h5]; exact hi
    intro x hx
    rcases links_cases hs with e | ⟨addr, c, hl, -, e, -⟩ | ⟨l, r, y, z, e, e', ha, -, -⟩
    · rw [e] at hx
      obtain ⟨i, hf, hi⟩ := ih x hx
      exact keep _ i hf hi
    · rw [e] at hx
      rcases List.mem_append.1 hx with hx | hx
      · obtain ⟨i, hf, hi⟩ := ih x hx
        exact keep _ i hf hi
      · obtain rfl := List.mem_singleton.1 hx
        have hk := (find_isSome_iff s.table addr).2 ((inv_reachable hr).known.loop addr (by rw [hl]; rfl))
        obtain ⟨i, hf⟩ := Option.isSome_iff_exists.1 hk
        obtain ⟨i', e', h'⟩ := C109_changes s s' hs addr i hf
        refine ⟨i', e', ?_⟩
        have hin := (inv_reachable (hr.next hp hs)).entries.owner ⟨c, addr, .up, false⟩ (by rw [e]; simp)
          (by simp [occupies]) i' e'
        rw [hin]; simp
    · rw [e'] at hx
      rcases List.mem_append.1 hx with hx | hx
      · obtain ⟨i, hf, hi⟩ := ih x (by rw [e]; exact List.mem_append_left _ hx)
        exact keep _ i hf hi
      · rcases List.mem_cons.1 hx with rfl | hx
        · obtain ⟨i, hf, hi⟩ := ih y (by rw [e]; simp)
          rw [← ha] at hf
          exact keep _ i hf hi
        · obtain ⟨i, hf, hi⟩ := ih x (by rw [e]; exact List.mem_append_right _ (List.mem_cons_of_mem _ hx))
          exact keep _ i hf hi

/-- **C109, every history.** After every history of the pool every entry is `Recorded`: nothing is recorded about an
address before a handshake with it has succeeded. -/
theorem C109_history (s : Pool) (h : Reachable Pool.new s) (a : String) (i : PeerInfo)
    (hi : s.table.find a = some i) : Recorded i := by
  induction h generalizing a i with
  | here => cases hi
  | @next s s' hr hp hs ih =>
    cases hf : s.table.find a with
    | none =>
      rcases find_cases hs a with e | ⟨-, -, e, -⟩ | ⟨j, hj, -⟩
      · rw [e, hf] at hi; cases hi
      · rw [e] at hi; cases hi; exact .inl ⟨rfl, rfl, rfl, rfl, rfl⟩
      · rw [hf] at hj; cases hj
    | some j =>
      have hj := ih a j hf
      obtain ⟨i', e, h'⟩ := C109_changes s s' hs a j hf
      rw [e] at hi; cases hi
      rcases h' with ⟨h1, h2, h3, h4, -, h6⟩ | ⟨c, -, -, -, h4, -, h6, -⟩ | ⟨x, hx, ha, -, -, h5, h6, -, -⟩
      · unfold Recorded
        rw [h1, h2, h3, h4, h6]; exact hj
      · exact .inr ⟨by rw [h4]; simp, h6⟩
      · rcases hj with ⟨hn, -⟩ | ⟨hn, hv⟩
        · exact absurd hn (by
            obtain ⟨k, hk, hk'⟩ := links_have_peer s hr x hx
            rw [ha, hf] at hk; cases hk; exact hk')
        · exact .inr ⟨by rw [h5]; exact hn, by rw [h6]; exact hv⟩

/-- **What this means for relaying.** A peer that has just told any difficulty, however great, is sent every block of
positive height that is relayed before its first message: the handshake tells no height, and height 0 counts as
behind. -/
theorem C109_height_unknown (s : Pool) (h : Reachable Pool.new s) (addr : String) (c : Nat) (n : Int)
    (hl : s.loop = .greeting addr c) (hn : s.seen = some n) (sh : Shake) (hv : sh.version = 1) (now : Time) :
    ∃ s' i, Step s s' ∧ s'.table.find addr = some i ∧ i.totalDifficulty = sh.totalDifficulty ∧
      ∀ height td, 0 < height.toNat → (addr, c) ∈ relayTargets s'.table s'.online height td := by
  have hk := (find_isSome_iff s.table addr).2 ((inv_reachable h).known.loop addr (by rw [hl]; rfl))
  obtain ⟨i, hi⟩ := Option.isSome_iff_exists.1 hk
  have e : (s.table.update addr (registered c now (toldIn sh))).find addr = some (registered c now (toldIn sh) i) := by
    rw [find_update, if_pos rfl, hi, Option.map_some]
  refine ⟨_, _, .register s addr c (toldIn sh) now n hl hv hn, e, rfl, fun height td hh => ?_⟩
  exact (C62_targets _ _ height td addr c).2 ⟨List.mem_cons_self, _, e, rfl, .inl hh⟩

/-! ### Concrete cases -/

/-- A remote peer with the greatest possible difficulty. -/
def Shake.great : Shake :=
  { version := 1, capabilities := 7, totalDifficulty := 0xffffffffffffffff, userAgent := [], genesis := List.replicate 32 0 }

/-- `C109_shake` and `C109_height_unknown` apply to the first handshake of the pool. -/
example (resolve : String → Option TCPAddr) (hr : ∀ a, resolve "" = some a → a.port = 0)
    (addr : String) (ha : Admissible resolve addr) :
    ∃ s s' i, Reachable Pool.new s ∧ Step s s' ∧ s'.table.find addr = some i ∧
      i.totalDifficulty = 0xffffffffffffffff ∧ (addr, 0) ∈ relayTargets s'.table s'.online 1 1 := by
  have g := (greeting_reachable hr ha).next rfl (.see _ addr 0 rfl rfl)
  obtain ⟨s', i, hs, hf, ht, h⟩ := C109_height_unknown _ g addr 0 0 rfl rfl Shake.great rfl (Time.unix 0)
  exact ⟨_, s', i, g, hs, hf, ht, h 1 1 (by decide)⟩

end Gringo.Props
