import Verif.Spec.Session
import Verif.Props.Handshake
import Verif.Props.Sync
/-
C92-C96: from the handshake to the answers, and what a history of messages does to the node.
-/
namespace Gringo.Props
open Gringo.Spec Gringo.P2P

variable {E : Env}

/-! ### One message -/

theorem orBan_cases (w : World) (n : Node E) (f : Sender) (r : Out Unit) (k : Node E → Handled E) :
    orBan w n f r k = k n ∨
    ((orBan w n f r k).ended ≠ .done ∧ (orBan w n f r k).effects = [] ∧
      ((orBan w n f r k).node = n ∨
        (orBan w n f r k).node = { n with table := n.table.update f.remote fun i => { i with status := .banned } })) := by
  cases r with
  | ok u => exact .inl rfl
  | panic p => exact .inr ⟨by simp [orBan], rfl, .inl rfl⟩
  | fatal p => exact .inr ⟨by simp [orBan], rfl, .inl rfl⟩
  | err e =>
    simp only [orBan, afterBan]
    cases hf : n.table.find f.remote with
    | none => rw [ban_unknown hf]; exact .inl rfl
    | some i =>
      right
      have hk : f.remote ∈ n.table.map (·.1) := by rw [← find_isSome_iff, hf]; rfl
      have h1 := (C56_refuted n.table f.remote hk (some f.conn) w.closing).1
      have h2 := ban_known hf (some f.conn) w.closing
      cases hb : ban n.table f.remote (some f.conn) w.closing with
      | mk t o =>
        rw [hb] at h1 h2
        simp only at h2
        subst h2
        cases o with
        | returned => exact absurd rfl h1
        | panics p => exact ⟨by simp, rfl, .inr rfl⟩
        | blocks => exact ⟨by simp, rfl, .inr rfl⟩

/-- A record that differs in height and total difficulty only. -/
def SameButState (i j : PeerInfo) : Prop :=
  j.status = i.status ∧ j.peer = i.peer ∧ j.protocolVersion = i.protocolVersion ∧
    j.capabilities = i.capabilities ∧ j.lastConn = i.lastConn

/-- What handling one message can do to the table. -/
inductive Touches (w : World) (f : Sender) (m : Message E) (t : Table) : Table → Prop
  | nothing : Touches w f m t t
  | own (g : PeerInfo → PeerInfo) (hg : ∀ i, SameButState i (g i)) : Touches w f m t (t.update f.addr g)
  | banned : Touches w f m t (t.update f.remote fun i => { i with status := .banned })
  | told (p : PeerAddrs) (h : m = .peerAddrs p) :
      Touches w f m t (p.peers.foldl (fun t a => add w.resolve t (w.addrString a)) t)

theorem blockRecord_same (b : Block E) (i : PeerInfo) : SameButState i (blockRecord b i) := by
  unfold blockRecord
  split <;> exact ⟨rfl, rfl, rfl, rfl, rfl⟩

theorem process_touches (w : World) (node : Node E) (f : Sender) (m : Message E) :
    ∃ t, (processMessage w node f m).node = { node with table := t } ∧ Touches w f m node.table t := by
  unfold processMessage
  split
  · exact ⟨_, rfl, .nothing⟩
  cases m with
  | ping m => exact ⟨_, rfl, .own _ fun _ => ⟨rfl, rfl, rfl, rfl, rfl⟩⟩
  | pong m => exact ⟨_, rfl, .own _ fun _ => ⟨rfl, rfl, rfl, rfl, rfl⟩⟩
  | getPeerAddrs m => exact ⟨_, rfl, .nothing⟩
  | peerAddrs m => exact ⟨_, rfl, .told m rfl⟩
  | getHeaders m => simp only [handle]; split <;> exact ⟨_, rfl, .nothing⟩
  | header m => simp only [handle]; split <;> exact ⟨_, rfl, .nothing⟩
  | headers m =>
    simp only [handle]
    rcases orBan_cases w node f (Chain.processHeaders E m.headers) (fun node => { node, effects := [], ended := .done })
      with h | ⟨-, -, h | h⟩
    · rw [h]; exact ⟨_, rfl, .nothing⟩
    · rw [h]; exact ⟨_, rfl, .nothing⟩
    · rw [h]; exact ⟨_, rfl, .banned⟩
  | getBlock m => exact ⟨_, rfl, .nothing⟩
  | block b =>
    simp only [handle]
    have hc : { node with chain := (node.chain.processBlock node.storage b).2 } = node := rfl
    rw [hc]
    rcases orBan_cases w node f (node.chain.processBlock node.storage b).1 (fun node =>
        let node := { node with table := node.table.update f.addr (blockRecord b) }
        { node
          effects := if b.header.height = node.chain.height then
              (relayTargets node.table node.online b.header.height b.header.totalDifficulty).map fun (a, c) =>
                .relay a c b
            else []
          ended := .done }) with h | ⟨-, -, h | h⟩
    · rw [h]; exact ⟨_, rfl, .own _ (blockRecord_same b)⟩
    · rw [h]; exact ⟨_, rfl, .nothing⟩
    · rw [h]; exact ⟨_, rfl, .banned⟩
  | transaction t =>
    simp only [handle]
    split
    · exact ⟨_, rfl, .nothing⟩
    · rename_i tx _
      rcases orBan_cases w node f (tx t) (fun node => { node, effects := [], ended := .done })
        with h | ⟨-, -, h | h⟩
      · rw [h]; exact ⟨_, rfl, .nothing⟩
      · rw [h]; exact ⟨_, rfl, .nothing⟩
      · rw [h]; exact ⟨_, rfl, .banned⟩

/-- Addresses told: the old entries stay in front. -/
theorem told_prefix (w : World) (l : List TCPAddr) (t : Table) :
    ∃ new, l.foldl (fun t a => add w.resolve t (w.addrString a)) t = t ++ new ∧
      (UniqueKeys t → UniqueKeys (t ++ new)) ∧ (t.length ≤ 10001 → (t ++ new).length ≤ 10001) ∧
      ∀ e ∈ new, e.2 = PeerInfo.fresh ∧ ∃ a ∈ l, w.addrString a = e.1 := by
  induction l generalizing t with
  | nil => exact ⟨[], by simp, by simp, by simp, by simp⟩
  | cons a l ih =>
    obtain ⟨x, hx, hcase⟩ := add_prefix w.resolve t (w.addrString a)
    obtain ⟨y, hy, hu, hl, hn⟩ := ih (t ++ x)
    refine ⟨x ++ y, by rw [List.foldl_cons, hx, hy, List.append_assoc], ?_, ?_, ?_⟩
    · intro h
      rw [← List.append_assoc]
      apply hu
      rcases hcase with rfl | ⟨rfl, -, -, hnot⟩
      · simpa using h
      · unfold UniqueKeys at h ⊢
        rw [List.map_append, List.nodup_append]
        refine ⟨h, by simp, ?_⟩
        intro k hk k' hk'
        simp only [List.map_cons, List.map_nil, List.mem_singleton] at hk'
        subst hk'
        rintro rfl
        exact hnot hk
    · intro h
      rw [← List.append_assoc]
      apply hl
      rcases hcase with rfl | ⟨rfl, -, hlen, -⟩
      · simpa using h
      · simp; omega
    · intro e he
      rcases List.mem_append.1 he with he | he
      · rcases hcase with rfl | ⟨rfl, -⟩
        · cases he
        · simp only [List.mem_singleton] at he
          subst he
          exact ⟨rfl, a, List.mem_cons_self .., rfl⟩
      · obtain ⟨h1, b, hb, h2⟩ := hn e he
        exact ⟨h1, b, List.mem_cons_of_mem _ hb, h2⟩

theorem find_append_of_mem {t new : Table} {a : String} (h : a ∈ t.map (·.1)) :
    (t ++ new).find a = t.find a := by
  unfold Table.find
  rw [List.lookup_append]
  have := (find_isSome_iff t a).2 h
  unfold Table.find at this
  obtain ⟨v, hv⟩ := Option.isSome_iff_exists.1 this
  rw [hv]; rfl

/-- Handling a message leaves all entries. -/
theorem process_leaves (w : World) (node : Node E) (f : Sender) (m : Message E) :
    LeavesEntries node (processMessage w node f m).node := by
  obtain ⟨t, h, ht⟩ := process_touches w node f m
  rw [h]
  refine ⟨rfl, rfl, rfl, ?_⟩
  intro x hx
  simp only
  cases ht with
  | nothing => exact hx
  | own g hg => rw [update_keys]; exact hx
  | banned => rw [update_keys]; exact hx
  | told p hp =>
    obtain ⟨new, e, -⟩ := told_prefix w p.peers node.table
    rw [e, List.map_append]; exact List.mem_append_left _ hx

theorem leaves_trans {a b c : Node E} (h1 : LeavesEntries a b) (h2 : LeavesEntries b c) : LeavesEntries a c :=
  ⟨h2.1.trans h1.1, h2.2.1.trans h1.2.1, h2.2.2.1.trans h1.2.2.1, fun x hx => h2.2.2.2 x (h1.2.2.2 x hx)⟩

/-- What is sent for one message. -/
theorem process_answers (w : World) (node : Node E) (f : Sender) (m : Message E) (headHash : Bytes)
    (hh : HasHash node.chain.head headHash) (known : Known node f) :
    ((processMessage w node f m).ended = .done → ∀ ms es, Answered node.chain node.storage headHash ms es →
      Answered node.chain node.storage headHash (m :: ms) ((processMessage w node f m).effects ++ es)) ∧
    ((processMessage w node f m).ended ≠ .done → (processMessage w node f m).effects = []) := by
  rw [process_known w node f known]
  cases m with
  | ping m => exact ⟨fun _ ms es h => .ping m h, fun h => absurd rfl h⟩
  | pong m => exact ⟨fun _ ms es h => .pong m h, fun h => absurd rfl h⟩
  | getPeerAddrs m =>
    exact ⟨fun _ ms es h => .getPeerAddrs m _
      (C54_peers w.resolve (w.order node.table) (w.order node.table) (List.Perm.refl _) m.capabilities).1 h,
      fun h => absurd rfl h⟩
  | peerAddrs m => exact ⟨fun _ ms es h => .peerAddrs m h, fun h => absurd rfl h⟩
  | getHeaders m =>
    simp only [handle]
    rw [C50_answer node.chain node.storage m headHash hh]
    exact ⟨fun _ ms es h => .getHeaders m h, fun h => absurd rfl h⟩
  | header m =>
    simp only [handle]
    split <;> exact ⟨fun _ ms es h => .header m h, fun _ => rfl⟩
  | headers m =>
    simp only [handle]
    rcases orBan_cases w node f (Chain.processHeaders E m.headers) (fun node => { node, effects := [], ended := .done })
      with h | ⟨h1, h2, -⟩
    · rw [h]; exact ⟨fun _ ms es h => .headers m h, fun _ => rfl⟩
    · exact ⟨fun h => absurd h h1, fun _ => h2⟩
  | getBlock m =>
    refine ⟨fun _ ms es h => ?_, fun h => absurd rfl h⟩
    simp only [handle, Chain.getBlock]
    by_cases hm : m.hash = []
    · rw [if_pos hm]; exact .getBlockUnknown m (.inl hm) h
    · rw [if_neg hm]
      cases hb : node.storage.getBlock { hash := some m.hash, height := none } with
      | none => exact .getBlockUnknown m (.inr hb) h
      | some b => exact .getBlock m b hb h
  | block b =>
    simp only [handle]
    have hc : { node with chain := (node.chain.processBlock node.storage b).2 } = node := rfl
    rw [hc]
    rcases orBan_cases w node f (node.chain.processBlock node.storage b).1 (fun node =>
        let node := { node with table := node.table.update f.addr (blockRecord b) }
        { node
          effects := if b.header.height = node.chain.height then
              (relayTargets node.table node.online b.header.height b.header.totalDifficulty).map fun (a, c) =>
                .relay a c b
            else []
          ended := .done }) with h | ⟨h1, h2, -⟩
    · rw [h]
      refine ⟨fun _ ms es h => Answered.block b _ ?_ h, fun h => absurd rfl h⟩
      intro x hx
      simp only at hx
      split at hx
      · obtain ⟨y, -, rfl⟩ := List.mem_map.1 hx
        exact ⟨_, _, rfl⟩
      · cases hx
    · exact ⟨fun h => absurd h h1, fun _ => h2⟩
  | transaction t =>
    simp only [handle]
    split
    · exact ⟨fun h => (nomatch h), fun _ => rfl⟩
    · rename_i tx _
      rcases orBan_cases w node f (tx t) (fun node => { node, effects := [], ended := .done })
        with h | ⟨h1, h2, -⟩
      · rw [h]; exact ⟨fun _ ms es h => .transaction t h, fun _ => rfl⟩
      · exact ⟨fun h => absurd h h1, fun _ => h2⟩

/-! ### C95 -/

/-- **C95.** Whatever arrives on a connection, and whatever the rest of the program does to the tables in the
meantime (short of removing entries): what is sent are the answers, in order, to the first so many messages that
the read loop found; to all of them, unless the handling of one did not end. The chain is as before. -/
theorem C95_answers_in_order (others : Nat → Node E → Node E) (ho : ∀ n x, LeavesEntries x (others n x))
    (w : Nat → World) (f : Sender) (n : Nat) (node : Node E) (s : Bytes) (headHash : Bytes)
    (hh : HasHash node.chain.head headHash) (known : Known node f) :
    ∃ ms after, (converse others w f n (some node) s).node = some after ∧ LeavesEntries node after ∧
      Answered node.chain node.storage headHash ms (converse others w f n (some node) s).effects ∧
      ((ms = (readLoop E n s).dispatched ∧
        (converse others w f n (some node) s).ending = .loop (readLoop E n s).ending) ∨
       ∃ m rest e, (readLoop E n s).dispatched = ms ++ m :: rest ∧ e ≠ .done ∧
        (converse others w f n (some node) s).ending = .handler e) := by
  induction n generalizing node s with
  | zero => exact ⟨[], node, rfl, ⟨rfl, rfl, rfl, fun _ h => h⟩, .nil, .inl ⟨rfl, rfl⟩⟩
  | succ n ih =>
    rw [converse, readLoop]
    cases hs : readStep E s with
    | stop e => exact ⟨[], node, rfl, ⟨rfl, rfl, rfl, fun _ h => h⟩, .nil, .inl ⟨rfl, rfl⟩⟩
    | next m c rest =>
      cases m with
      | none =>
        obtain ⟨ms, after, h1, h2, h3, h4⟩ := ih node rest hh known
        exact ⟨ms, after, h1, h2, h3, by simpa using h4⟩
      | some m =>
        simp only
        have hoth := ho n node
        have known' : Known (others n node) f := hoth.2.2.2 _ known
        have hh' : HasHash (others n node).chain.head headHash := by rw [hoth.1]; exact hh
        obtain ⟨ha, hb⟩ := process_answers (w n) (others n node) f m headHash hh' known'
        have hl := process_leaves (w n) (others n node) f m
        rw [hoth.1, hoth.2.1] at ha
        generalize processMessage (w n) (others n node) f m = r at ha hb hl ⊢
        have hl' := leaves_trans hoth hl
        by_cases hd : r.ended = .done
        · simp only [hd]
          obtain ⟨ms, after, h1, h2, h3, h4⟩ := ih r.node rest (by rw [hl'.1]; exact hh) (hl'.2.2.2 _ known)
          rw [hl'.1, hl'.2.1] at h3
          refine ⟨m :: ms, after, h1, leaves_trans hl' h2, ha hd _ _ h3, ?_⟩
          rcases h4 with ⟨h4, h5⟩ | ⟨m', rest', e, h4, h5, h6⟩
          · exact .inl ⟨by simp [h4], h5⟩
          · exact .inr ⟨m', rest', e, by simp [h4], h5, h6⟩
        · refine ⟨[], r.node, ?_, hl', ?_, .inr ⟨m, (readLoop E n rest).dispatched, r.ended, by simp, hd, ?_⟩⟩
          · split
            · exact absurd ‹_› hd
            · rfl
          · split
            · exact absurd ‹_› hd
            · simp only [hb hd]; exact .nil
          · split
            · exact absurd ‹_› hd
            · rfl

/-- Plain messages off the wire are handled to the end. -/
theorem plain_done (w : World) (node : Node E) (f : Sender) (t : UInt8) (body : Bytes) (m : Message E)
    (hm : Carries E t body (some m)) (hp : Plain m) (headHash : Bytes) (hh : HasHash node.chain.head headHash)
    (known : Known node f) : (processMessage w node f m).ended = .done := by
  rw [process_known w node f known]
  cases hm with
  | ping body r m hr => rfl
  | pong body r m hr => rfl
  | getPeerAddrs body r m hr => rfl
  | peerAddrs body r m hr => rfl
  | getHeaders body r m hr => simp only [handle]; rw [C50_answer node.chain node.storage m headHash hh]
  | getBlock body r m hr => rfl
  | header body r m hr =>
    simp only [handle]
    have h1 := C13_decoded_safe E body r m hr
    have h2 := processHeaders_safe (E := E) [m] (by
      intro x hx; simp only [List.mem_singleton] at hx; subst hx; exact h1.2.2)
    obtain ⟨v, hv⟩ := hash_ok hr
    rw [hv]
    cases hx : Chain.processHeaders E [m] with
    | ok u => rfl
    | err e => rfl
    | panic p => rw [hx] at h2; simp [Out.Safe] at h2
    | fatal p => rw [hx] at h2; simp [Out.Safe] at h2
  | headers | block | transaction => exact absurd hp (by simp [Plain])

theorem plain_continues (others : Nat → Node E → Node E) (ho : ∀ n x, LeavesEntries x (others n x))
    (w : Nat → World) (f : Sender) (n : Nat) (node : Node E) (s : Bytes) (headHash : Bytes)
    (hh : HasHash node.chain.head headHash) (known : Known node f)
    (hp : ∀ m ∈ (readLoop E n s).dispatched, Plain m) (e : Ended) :
    (converse others w f n (some node) s).ending ≠ .handler e := by
  induction n generalizing node s with
  | zero => simp [converse]
  | succ n ih =>
    rw [readLoop] at hp
    rw [converse]
    cases hs : readStep E s with
    | stop e => simp
    | next m c rest =>
      rw [hs] at hp
      simp only at hp
      cases m with
      | none => exact ih node rest hh known (fun m hm => hp m (by simpa using hm))
      | some m =>
        obtain ⟨t, body, -, hc, -⟩ := readStep_next E hs
        have hoth := ho n node
        have hh' : HasHash (others n node).chain.head headHash := by rw [hoth.1]; exact hh
        have hd := plain_done (w n) (others n node) f t body m hc (hp m (by simp)) headHash hh' (hoth.2.2.2 _ known)
        have hl := leaves_trans hoth (process_leaves (w n) (others n node) f m)
        simp only [hd]
        exact ih _ rest (by rw [hl.1]; exact hh) (hl.2.2.2 _ known) (fun m hm => hp m (by simp [hm]))

/-- **C95, complete.** If the frames on a connection carry nothing but pings, pongs, single headers, address
lists and requests, then all of them are answered and the loop ends with the stream. -/
theorem C95_all_answered (hmem : 20000000 ≤ E.maxAlloc) (others : Nat → Node E → Node E)
    (ho : ∀ n x, LeavesEntries x (others n x)) (w : Nat → World) (f : Sender) (node : Node E)
    (fs : List (GoodFrame E)) (n : Nat) (hn : (streamOf fs).length < n) (headHash : Bytes)
    (hh : HasHash node.chain.head headHash) (known : Known node f) (hp : ∀ m ∈ messagesOf fs, Plain m) :
    Answered node.chain node.storage headHash (messagesOf fs)
      (converse others w f n (some node) (streamOf fs)).effects ∧
    (converse others w f n (some node) (streamOf fs)).ending = .loop (.exit (some "EOF")) := by
  obtain ⟨g1, -, g3⟩ := C07_exact_split E hmem fs
  rw [← C09_enough E n _ hn] at g1 g3
  obtain ⟨ms, after, -, -, h3, h4⟩ := C95_answers_in_order others ho w f n node (streamOf fs) headHash hh known
  rcases h4 with ⟨h4, h5⟩ | ⟨m, rest, e, -, -, h6⟩
  · rw [h4, g1] at h3
    exact ⟨h3, by rw [h5, g3]⟩
  · exact absurd h6 (plain_continues others ho w f n node _ headHash hh known (by rw [g1]; exact hp) e)

/-! ### C96 -/

/-- The addresses told in a history. -/
def ToldIn (h : History E) (a : String) : Prop :=
  ∃ e ∈ h, ∃ p x, e.2.2 = .peerAddrs p ∧ x ∈ p.peers ∧ e.1.addrString x = a

/-- **C96.** After any history of messages from any senders: chain, storage, pool of transactions and the set of
connected peers are as before; no entry of the peer table is gone, at most 10001 are there and no address twice;
an entry that was added has an address that a peer has told; an entry that existed still belongs to the same
connection, with version, capabilities and time of connection as they were, and has kept its status or is banned;
and it is completely unchanged if none of the senders has it as address or as remote address. -/
theorem C96_history (node : Node E) (hu : UniqueKeys node.table) (hsize : node.table.length ≤ 10001)
    (h : History E) :
    (afterMessages node h).chain = node.chain ∧ (afterMessages node h).storage = node.storage ∧
    (afterMessages node h).mempool = node.mempool ∧ (afterMessages node h).online = node.online ∧
    UniqueKeys (afterMessages node h).table ∧ (afterMessages node h).table.length ≤ 10001 ∧
    (∀ a i, node.table.find a = some i → ∃ j, (afterMessages node h).table.find a = some j ∧
      j.peer = i.peer ∧ j.protocolVersion = i.protocolVersion ∧ j.capabilities = i.capabilities ∧
      j.lastConn = i.lastConn ∧ (j.status = i.status ∨ j.status = .banned) ∧
      ((∀ e ∈ h, e.2.1.addr ≠ a ∧ e.2.1.remote ≠ a) → j = i)) ∧
    (∀ a ∈ (afterMessages node h).table.map (·.1), a ∈ node.table.map (·.1) ∨ ToldIn h a) := by
  induction h generalizing node with
  | nil =>
    exact ⟨rfl, rfl, rfl, rfl, hu, hsize, fun a i hi => ⟨i, hi, rfl, rfl, rfl, rfl, .inl rfl, fun _ => rfl⟩,
      fun a ha => .inl ha⟩
  | cons e h ih =>
    obtain ⟨w, f, m⟩ := e
    obtain ⟨t, hn, ht⟩ := process_touches w node f m
    have hstep : afterMessages node ((w, f, m) :: h) = afterMessages (processMessage w node f m).node h := rfl
    rw [hstep, hn]
    -- one step
    have one : UniqueKeys t ∧ t.length ≤ 10001 ∧
        (∀ a i, node.table.find a = some i → ∃ j, t.find a = some j ∧
          j.peer = i.peer ∧ j.protocolVersion = i.protocolVersion ∧ j.capabilities = i.capabilities ∧
          j.lastConn = i.lastConn ∧ (j.status = i.status ∨ j.status = .banned) ∧
          (f.addr ≠ a ∧ f.remote ≠ a → j = i)) ∧
        (∀ a ∈ t.map (·.1), a ∈ node.table.map (·.1) ∨ ToldIn [(w, f, m)] a) := by
      cases ht with
      | nothing =>
        exact ⟨hu, hsize, fun a i hi => ⟨i, hi, rfl, rfl, rfl, rfl, .inl rfl, fun _ => rfl⟩, fun a ha => .inl ha⟩
      | own g hg =>
        refine ⟨by unfold UniqueKeys; rw [update_keys]; exact hu, by rw [Table.update, List.length_map]; exact hsize,
          ?_, fun a ha => .inl (by rw [update_keys] at ha; exact ha)⟩
        intro a i hi
        rw [find_update]
        by_cases ha : a = f.addr
        · rw [if_pos ha, hi]
          obtain ⟨h1, h2, h3, h4, h5⟩ := hg i
          exact ⟨g i, rfl, h2, h3, h4, h5, .inl h1, fun hx => absurd ha.symm hx.1⟩
        · rw [if_neg ha]
          exact ⟨i, hi, rfl, rfl, rfl, rfl, .inl rfl, fun _ => rfl⟩
      | banned =>
        refine ⟨by unfold UniqueKeys; rw [update_keys]; exact hu, by rw [Table.update, List.length_map]; exact hsize,
          ?_, fun a ha => .inl (by rw [update_keys] at ha; exact ha)⟩
        intro a i hi
        rw [find_update]
        by_cases ha : a = f.remote
        · rw [if_pos ha, hi]
          exact ⟨_, rfl, rfl, rfl, rfl, rfl, .inr rfl, fun hx => absurd ha.symm hx.2⟩
        · rw [if_neg ha]
          exact ⟨i, hi, rfl, rfl, rfl, rfl, .inl rfl, fun _ => rfl⟩
      | told p hp =>
        obtain ⟨new, e, k1, k2, k3⟩ := told_prefix w p.peers node.table
        rw [e]
        refine ⟨k1 hu, k2 hsize, ?_, ?_⟩
        · intro a i hi
          rw [find_append_of_mem (by rw [← find_isSome_iff, hi]; rfl)]
          exact ⟨i, hi, rfl, rfl, rfl, rfl, .inl rfl, fun _ => rfl⟩
        · intro a ha
          rw [List.map_append, List.mem_append] at ha
          rcases ha with ha | ha
          · exact .inl ha
          · obtain ⟨x, hx, rfl⟩ := List.mem_map.1 ha
            obtain ⟨-, y, hy, hxy⟩ := k3 x hx
            exact .inr ⟨_, List.mem_singleton.2 rfl, p, y, hp, hy, hxy⟩
    obtain ⟨o1, o2, o3, o4⟩ := one
    obtain ⟨i1, i2, i3, i4, i5, i6, i7, i8⟩ := ih { node with table := t } o1 o2
    refine ⟨i1, i2, i3, i4, i5, i6, ?_, ?_⟩
    · intro a i hi
      obtain ⟨j, hj, a1, a2, a3, a4, a5, a6⟩ := o3 a i hi
      obtain ⟨k, hk, b1, b2, b3, b4, b5, b6⟩ := i7 a j hj
      refine ⟨k, hk, b1.trans a1, b2.trans a2, b3.trans a3, b4.trans a4, ?_, ?_⟩
      · rcases b5 with b5 | b5
        · rw [b5]; exact a5
        · exact .inr b5
      · intro hx
        rw [b6 fun e he => hx e (List.mem_cons_of_mem _ he), a6 (hx (w, f, m) (List.mem_cons_self ..))]
    · intro a ha
      rcases i8 a ha with ha | ⟨e, he, hx⟩
      · rcases o4 a ha with ha | ⟨e, he, hx⟩
        · exact .inl ha
        · rw [List.mem_singleton] at he
          subst he
          exact .inr ⟨_, List.mem_cons_self .., hx⟩
      · exact .inr ⟨e, List.mem_cons_of_mem _ he, hx⟩

/-! ### C92 -/

theorem readMessage_ok {α : Type} {t : UInt8} {rd : Rd α} {s r : Bytes} {a : α} {n : UInt64}
    (h : readMessage t rd s = (.ok (a, n), r)) :
    ∃ (len : Nat) (tail left : Bytes), len ≤ 20000000 ∧ s = [0x54, 0x34, t] ++ be 8 len ++ tail ∧
      rd (tail.take len) = (.ok a, left) ∧ r = left ++ tail.drop len := by
  by_cases hbad : s.length < 11 ∨ s.take 2 ≠ [0x54, 0x34]
  · obtain ⟨e, left, hx⟩ := C04_refuses t s (hbad.elim .inl fun h => .inr (.inl h))
    rw [hx] at h; cases h
  · push Not at hbad
    obtain ⟨t', l, rest, e⟩ := header_spelled s hbad.1 hbad.2
    rw [(C01_header_roundtrip _ _).1] at e
    by_cases hb : t' ≠ t ∨ 20000000 < l.toNat
    · obtain ⟨e, left, hx⟩ := C04_refuses t s (.inr (.inr ⟨t', l, rest, e, hb⟩))
      rw [hx] at h; cases h
    · push Not at hb
      obtain ⟨rfl, hb⟩ := hb
      refine ⟨l.toNat, rest, (rd (rest.take l.toNat)).2, hb, e, ?_⟩
      have hbig : ¬ l > MaxMsgLen := by
        intro hc
        have := UInt64.lt_iff_toNat_lt.1 hc
        have h2 : MaxMsgLen.toNat = 20000000 := rfl
        omega
      have e2 : s = [0x54, 0x34, t'] ++ be64 l ++ rest := by rw [e]; rfl
      rw [e2, readMessage, Rd.bind_run, limited_header, Rd.cont_ok] at h
      simp only [ne_eq, not_true, if_false] at h
      rw [if_neg hbig, Rd.bind_run] at h
      obtain ⟨a', r2, h2, h3⟩ := cont_eq_ok h
      simp only [Rd.pure_run, Prod.mk.injEq, Out.ok.injEq] at h3
      obtain ⟨⟨rfl, -⟩, rfl⟩ := h3
      unfold Rd.limit at h2
      obtain ⟨h4, h5⟩ := Prod.mk.inj h2
      exact ⟨by rw [← h4], h5.symm⟩

/-- What a peer made by `NewPeer` is, given the shake. -/
def describedBy (addr : String) (sh : Shake) : P2P.Peer where
  sync := true
  addr := addr
  version := sh.version
  capabilities := sh.capabilities
  totalDifficulty := sh.totalDifficulty
  userAgent := sh.userAgent
  height := 0

theorem shake_ok {nonces : NonceList} {receiver : TCPAddr} {genesis input : Bytes} {sh : Shake}
    (h : (shakeByHand E nonces receiver genesis input).result = .ok sh) :
    ∃ (len : Nat) (tail left : Bytes), len ≤ 20000000 ∧ input = [0x54, 0x34, 2] ++ be 8 len ++ tail ∧
      Shake.read E (tail.take len) = (.ok sh, left) ∧
      (shakeByHand E nonces receiver genesis input).rest = left ++ tail.drop len := by
  unfold shakeByHand at h ⊢
  split at h
  case h_2 | h_3 | h_4 => cases h
  split at h
  case h_2 | h_3 | h_4 => cases h
  simp only at h ⊢
  split at h
  case h_2 | h_3 | h_4 => cases h
  rename_i hrm
  simp only [Out.ok.injEq] at h
  subst h
  obtain ⟨len, tail, left, h1, h2, h3, h4⟩ := readMessage_ok hrm
  exact ⟨len, tail, left, h1, h2, h3, by simp only [*]⟩

/-- **C92, whom we are connected to.** A peer that `NewPeer` returns is described by a shake of protocol version 1
that the remote side has sent as its first frame: version, capabilities, total difficulty and user agent are the
shake's. The connection is open, and what follows the shake is still to be read. -/
theorem C92_described (resolve : String → Option TCPAddr) (dial : TCPAddr → Option (TCPAddr × Bytes))
    (nonces : NonceList) (genesis : Bytes) (addr : String) (p : P2P.Peer)
    (h : (newPeer E resolve dial nonces genesis addr).result = .ok p) :
    ∃ a remote input len tail left sh, resolve addr = some a ∧ dial a = some (remote, input) ∧ len ≤ 20000000 ∧
      input = [0x54, 0x34, 2] ++ be 8 len ++ tail ∧ Shake.read E (tail.take len) = (.ok sh, left) ∧
      sh.version = 1 ∧ p = describedBy addr sh ∧
      (newPeer E resolve dial nonces genesis addr).unread = left ++ tail.drop len ∧
      (newPeer E resolve dial nonces genesis addr).isOpen = true := by
  unfold newPeer at h ⊢
  cases hr : resolve addr with
  | none => rw [hr] at h; cases h
  | some a =>
    rw [hr] at h
    simp only at h ⊢
    cases hd : dial a with
    | none => rw [hd] at h; cases h
    | some x =>
      obtain ⟨remote, input⟩ := x
      rw [hd] at h
      simp only at h ⊢
      cases hs : (shakeByHand E nonces remote genesis input).result with
      | ok sh =>
        rw [hs] at h
        simp only [Out.bind_ok, Out.pure_def, Out.ok.injEq] at h
        obtain ⟨len, tail, left, h1, h2, h3, h4⟩ := shake_ok hs
        exact ⟨a, remote, input, len, tail, left, sh, rfl, hd, h1, h2, h3, (C23_shake_gate E _ _ _ h3).1, h.symm,
          h4, trivial⟩
      | err e => rw [hs] at h; cases h
      | panic e => rw [hs] at h; cases h
      | fatal e => rw [hs] at h; cases h

theorem newPeer_shake (hmem : 13 ≤ E.maxAlloc) (resolve : String → Option TCPAddr)
    (dial : TCPAddr → Option (TCPAddr × Bytes)) (nonces : NonceList) (hn : NoncesOK nonces) (genesis : Bytes)
    (hg : genesis.length = 32) (addr : String) (a remote : TCPAddr) (hr : resolve addr = some a)
    (hip : IPv4 remote) (sh : Shake) (hv : sh.version = 1) (hsg : sh.genesis.length = 32)
    (junk rest : Bytes) (hlen : sh.userAgent.length + junk.length ≤ 1000000) (hm2 : sh.userAgent.length ≤ E.maxAlloc)
    (hd : dial a = some (remote, frameBytes 2 (sh.bytes ++ junk) ++ rest)) :
    (newPeer E resolve dial nonces genesis addr).result = .ok (describedBy addr sh) ∧
    (newPeer E resolve dial nonces genesis addr).unread = junk ++ rest := by
  obtain ⟨x, n', hx, -, -, -⟩ := next_ok hn
  obtain ⟨v, hvb, -, -⟩ := ownHand_wf E hmem x remote genesis hip hg
  obtain ⟨hl, hrd⟩ := C23_shake_roundtrip E sh hv hsg (by omega) hm2
  have hfl : (sh.bytes ++ junk).length ≤ 20000000 := by rw [List.length_append]; omega
  obtain ⟨n, hrm⟩ := C06_position_partial MsgTypeShake (Shake.read E) sh.bytes junk rest sh hrd hfl
  have hw : (writeMessage MsgTypeShake (sh.bytes ++ junk)).1 = frameBytes 2 (sh.bytes ++ junk) := by
    have h64 : (sh.bytes ++ junk).length < 2 ^ 64 := by omega
    rw [frameBytes, be64_eq h64]
    simp [writeMessage, Header.bytes, MagicCode, MsgTypeShake]
  rw [hw] at hrm
  simp only [newPeer, hr, hd, shakeByHand, hx, hvb, hrm, Out.bind_ok, Out.pure_def]
  exact ⟨rfl, trivial⟩

/-- **C92, the part that holds.** If the remote side sends a shake in a frame of exactly its length, and then any
well-formed frames, then `NewPeer` returns a peer described by the shake, and the read loop of that peer finds
exactly the messages that follow. -/
theorem C92_nothing_lost_partial (hmem : 20000000 ≤ E.maxAlloc) (resolve : String → Option TCPAddr)
    (dial : TCPAddr → Option (TCPAddr × Bytes)) (nonces : NonceList) (hn : NoncesOK nonces) (genesis : Bytes)
    (hg : genesis.length = 32) (addr : String) (a remote : TCPAddr) (hr : resolve addr = some a)
    (hip : IPv4 remote) (sh : Shake) (hv : sh.version = 1) (hsg : sh.genesis.length = 32)
    (hlen : sh.userAgent.length ≤ 1000000) (fs : List (GoodFrame E))
    (hd : dial a = some (remote, frameBytes 2 sh.bytes ++ streamOf fs)) :
    (newPeer E resolve dial nonces genesis addr).result = .ok (describedBy addr sh) ∧
    (readHandler E (newPeer E resolve dial nonces genesis addr).unread).dispatched = messagesOf fs := by
  obtain ⟨h1, h2⟩ := newPeer_shake (E := E) (by omega) resolve dial nonces hn genesis hg addr a remote hr hip sh hv hsg []
    (streamOf fs) (by simpa using hlen) (by omega) (by simpa using hd)
  refine ⟨h1, ?_⟩
  rw [h2, List.nil_append]
  exact (C07_exact_split E hmem fs).1

/-- **C92 is false of the code.** If the frame of the shake is longer than the shake, the surplus is taken for the
start of the next frame: with a surplus that does not start like a frame nothing that follows is found, although
the handshake succeeds. -/
theorem C92_refuted (hmem : 20000000 ≤ E.maxAlloc) (resolve : String → Option TCPAddr)
    (dial : TCPAddr → Option (TCPAddr × Bytes)) (nonces : NonceList) (hn : NoncesOK nonces) (genesis : Bytes)
    (hg : genesis.length = 32) (addr : String) (a remote : TCPAddr) (hr : resolve addr = some a)
    (hip : IPv4 remote) (sh : Shake) (hv : sh.version = 1) (hsg : sh.genesis.length = 32)
    (hlen : sh.userAgent.length ≤ 900000) (x y : UInt8) (hxy : ¬ (x = 0x54 ∧ y = 0x34)) (fs : List (GoodFrame E))
    (hd : dial a = some (remote, frameBytes 2 (sh.bytes ++ [x, y]) ++ streamOf fs)) :
    (newPeer E resolve dial nonces genesis addr).result = .ok (describedBy addr sh) ∧
    (readHandler E (newPeer E resolve dial nonces genesis addr).unread).dispatched = [] := by
  obtain ⟨h1, h2⟩ := newPeer_shake (E := E) (by omega) resolve dial nonces hn genesis hg addr a remote hr hip sh hv hsg [x, y]
    (streamOf fs) (by simp; omega) (by omega) hd
  refine ⟨h1, ?_⟩
  rw [h2]
  have := (C08_stops_at_fault E hmem [] (x :: y :: streamOf fs) (.magic x y _ hxy)).1
  simp only [streamOf, List.flatMap_nil, List.nil_append] at this
  have h0 := (C07_exact_split E hmem []).1
  simp only [streamOf, List.flatMap_nil, messagesOf] at h0
  rw [h0] at this
  exact this

/-! ### C93 -/

/-- **C93, the part that holds.** If the address does not resolve or nobody answers there, nothing is sent, no nonce
is used and nothing is left open. -/
theorem C93_not_dialled_partial (resolve : String → Option TCPAddr) (dial : TCPAddr → Option (TCPAddr × Bytes))
    (nonces : NonceList) (genesis : Bytes) (addr : String) (h : ∀ a, resolve addr = some a → dial a = none) :
    (∃ e, (newPeer E resolve dial nonces genesis addr).result = .err e) ∧
    (newPeer E resolve dial nonces genesis addr).isOpen = false ∧
    (newPeer E resolve dial nonces genesis addr).sent = [] ∧
    (newPeer E resolve dial nonces genesis addr).nonces = nonces := by
  unfold newPeer
  cases hr : resolve addr with
  | none => exact ⟨⟨_, rfl⟩, rfl, rfl, rfl⟩
  | some a => simp only [h a hr]; exact ⟨⟨_, rfl⟩, trivial, trivial, trivial⟩

/-- **C93 is false of the code.** Whenever the remote side answers with anything but a shake, the call fails and
the connection stays open. -/
theorem C93_refuted (resolve : String → Option TCPAddr) (dial : TCPAddr → Option (TCPAddr × Bytes))
    (nonces : NonceList) (genesis : Bytes) (addr : String) (a remote : TCPAddr) (input : Bytes)
    (hr : resolve addr = some a) (hd : dial a = some (remote, input))
    (hbad : input.length < 11 ∨ input.take 3 ≠ [0x54, 0x34, 2]) :
    (∀ p, (newPeer E resolve dial nonces genesis addr).result ≠ .ok p) ∧
    (newPeer E resolve dial nonces genesis addr).isOpen = true := by
  constructor
  · intro p hp
    obtain ⟨a', remote', input', len, tail, left, sh, h1, h2, -, h4, -⟩ := C92_described resolve dial nonces genesis addr p hp
    rw [hr] at h1; cases h1
    rw [hd] at h2; cases h2
    subst h4
    rcases hbad with hb | hb
    · simp only [List.length_append, List.length_cons, List.length_nil, be_length] at hb; omega
    · exact hb rfl
  · simp only [newPeer, hr, hd]

/-- **The same for a connection that was accepted.** Whenever the other side opens with anything but a hand, the
call fails and leaves open the connection it was given. -/
theorem C93_refuted_accepting (nonces : NonceList) (input : Bytes)
    (hbad : input.length < 11 ∨ input.take 3 ≠ [0x54, 0x34, 1]) :
    (∀ p, (acceptNewPeer E nonces input).result ≠ .ok p) ∧ (acceptNewPeer E nonces input).isOpen = true := by
  refine ⟨fun p h => ?_, rfl⟩
  unfold acceptNewPeer handByShake at h
  cases hm : readMessage MsgTypeHand (Hand.read E) input with
  | mk o r =>
    rw [hm] at h
    cases o with
    | ok x =>
      obtain ⟨hand, n⟩ := x
      obtain ⟨len, tail, left, -, h2, -⟩ := readMessage_ok hm
      subst h2
      rcases hbad with hb | hb
      · simp only [List.length_append, List.length_cons, List.length_nil, be_length] at hb; omega
      · exact hb rfl
    | err e => cases h
    | panic e => cases h
    | fatal e => cases h

/-! ### C94 -/

/-- **C94, the part that holds.** An accepted peer is described by the hand it sent. A hand has no height: it is 0. -/
theorem C94_described_partial (nonces : NonceList) (input : Bytes) (p : P2P.Peer)
    (h : (acceptNewPeer E nonces input).result = .ok p) :
    ∃ (len : Nat) (tail left : Bytes) (hand : Hand), len ≤ 20000000 ∧ input = [0x54, 0x34, 1] ++ be 8 len ++ tail ∧
      Hand.read E (tail.take len) = (.ok hand, left) ∧ hand.version = 1 ∧ hand.nonce ∉ nonces.list ∧
      p.version = hand.version ∧ p.capabilities = hand.capabilities ∧ p.totalDifficulty = hand.totalDifficulty ∧
      p.userAgent = hand.userAgent ∧ p.height = 0 ∧
      (acceptNewPeer E nonces input).unread = left ++ tail.drop len ∧
      (acceptNewPeer E nonces input).isOpen = true := by
  unfold acceptNewPeer handByShake at h ⊢
  cases hm : readMessage MsgTypeHand (Hand.read E) input with
  | mk o r =>
    rw [hm] at h
    cases o with
    | ok x =>
      obtain ⟨hand, n⟩ := x
      simp only at h ⊢
      by_cases hc : nonces.consist hand.nonce = true
      · rw [if_pos hc] at h; cases h
      · rw [if_neg hc] at h ⊢
        simp only [Out.bind_ok, Out.pure_def, Out.ok.injEq] at h
        obtain ⟨len, tail, left, h1, h2, h3, h4⟩ := readMessage_ok hm
        refine ⟨len, tail, left, hand, h1, h2, h3, (C23_hand_gate E _ _ _ h3).1, ?_, ?_⟩
        · intro hmem
          exact hc (List.any_eq_true.2 ⟨_, hmem, by simp⟩)
        · subst h
          exact ⟨rfl, rfl, rfl, rfl, rfl, h4, trivial⟩
    | err e => cases h
    | panic e => cases h
    | fatal e => cases h

/-- **C94 is false of the code.** An accepted peer has no syncer and no address: the first message that its read
loop finds, of whatever kind, makes the program panic, before anything is sent. -/
theorem C94_refuted (hmem : 20000000 ≤ E.maxAlloc) (nonces : NonceList) (input : Bytes) (p : P2P.Peer)
    (h : (acceptNewPeer E nonces input).result = .ok p) (fs : List (GoodFrame E)) (m : Message E)
    (ms : List (Message E)) (hfs : messagesOf fs = m :: ms) (rest : Bytes)
    (others : Nat → Node E → Node E) (w : Nat → World) (f : Sender) (n : Nat) (hn : fs.length ≤ n) :
    p.sync = false ∧ p.addr = "" ∧
    (converse others w f n none (streamOf fs ++ rest)).effects = [] ∧
    ∃ e, (converse others w f n none (streamOf fs ++ rest)).ending = .handler (.panic e) := by
  have hp : p.sync = false ∧ p.addr = "" := by
    unfold acceptNewPeer at h
    simp only at h
    cases hx : (handByShake E nonces input).result with
    | ok hand =>
      rw [hx] at h
      simp only [Out.bind_ok, Out.pure_def, Out.ok.injEq] at h
      subst h; exact ⟨rfl, rfl⟩
    | err e => rw [hx] at h; cases h
    | panic e => rw [hx] at h; cases h
    | fatal e => rw [hx] at h; cases h
  refine ⟨hp.1, hp.2, ?_⟩
  clear h hp
  induction fs generalizing n with
  | nil => cases hfs
  | cons g fs ih =>
    cases n with
    | zero => simp at hn
    | succ n =>
      have e : streamOf (g :: fs) ++ rest = frameBytes g.type g.body ++ (streamOf fs ++ rest) := by simp [streamOf]
      rw [e, converse, readStep_good E hmem g.type g.body g.msg g.size g.carries]
      cases hg : g.msg with
      | none =>
        simp only [messagesOf, List.flatMap_cons, hg, Option.toList_none, List.nil_append] at hfs
        exact ih hfs n (by simpa using hn)
      | some m' => exact ⟨rfl, _, rfl⟩

end Gringo.Props
