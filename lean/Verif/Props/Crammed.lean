import Verif.Props.Addresses
/-
C145: whether a node goes on learning addresses.
-/
namespace Gringo.Props
open Gringo.Spec Gringo.P2P Gringo.Net

theorem add_full (resolve : String → Option TCPAddr) (t : Table) (addr : String) (h : 10001 ≤ t.length) :
    add resolve t addr = t :=
  (C55_add resolve t addr).2 fun hc => by omega

theorem told_full (w : World) (l : List TCPAddr) (t : Table) (h : 10001 ≤ t.length) :
    l.foldl (fun t a => add w.resolve t (w.addrString a)) t = t := by
  induction l with
  | nil => rfl
  | cons x l ih => rw [List.foldl_cons, add_full _ _ _ h, ih]

/-- Every admissible address of a list is in the table afterwards, or the table is full. -/
theorem told_or_full (w : World) (l : List TCPAddr) (t : Table) (x : TCPAddr) (hx : x ∈ l)
    (ha : Admissible w.resolve (w.addrString x)) :
    w.addrString x ∈ (l.foldl (fun t a => add w.resolve t (w.addrString a)) t).map (·.1) ∨
      10001 ≤ (l.foldl (fun t a => add w.resolve t (w.addrString a)) t).length := by
  induction l generalizing t with
  | nil => cases hx
  | cons y l ih =>
    rw [List.foldl_cons]
    rcases List.mem_cons.1 hx with rfl | hx
    · by_cases hf : 10001 ≤ t.length
      · rw [add_full _ _ _ hf, told_full w l t hf]
        exact .inr hf
      · refine .inl (foldl_keeps w l _ _ ?_)
        by_cases hk : w.addrString x ∈ t.map (·.1)
        · obtain ⟨l', e, -⟩ := add_prefix w.resolve t (w.addrString x)
          rw [e, List.map_append]
          exact List.mem_append_left _ hk
        · rw [(C55_add w.resolve t (w.addrString x)).1 ⟨ha, by omega, hk⟩]
          simp
    · exact ih _ hx

/-- **C145, the part that holds.** A known peer sends a list of addresses. Each address of the list with a port that is not 0
and no multicast host is in the table afterwards, unless there are 10001 entries then. What is missing: the table may be full
of what somebody has told before, and then it stays like this (`C145_refuted`). -/
theorem C145_room_partial {E : Env} (r : Resolver) (order : Table → Table) (closing : Nat → Bool) (node : Node E)
    (f : Sender) (known : Known node f) (m : PeerAddrs) (a b c d : UInt8) (port : UInt16)
    (hx : ⟨[a, b, c, d], (port.toNat : Int)⟩ ∈ m.peers) (hp : port ≠ 0) (hmc : ¬ (224 ≤ a.toNat ∧ a.toNat < 240)) :
    let after := (processMessage (world r order closing) node f (.peerAddrs m)).node.table
    written a b c d port ∈ after.map (·.1) ∨ 10001 ≤ after.length := by
  have ht : (processMessage (world r order closing) node f (.peerAddrs m)).node.table =
      m.peers.foldl (fun t a => add (world r order closing).resolve t ((world r order closing).addrString a)) node.table := by
    rw [process_known _ node f known]; rfl
  simp only [ht]
  rw [← (C106_text r order closing a b c d port).1]
  refine told_or_full _ _ _ _ hx ?_
  rw [(C106_text r order closing a b c d port).1, admissible_written]
  exact ⟨hp, hmc⟩

/-- A table that is full has the same addresses after any history of messages. -/
theorem C145_full {E : Env} (node : Node E) (h : 10001 ≤ node.table.length) (later : History E) :
    (afterMessages node later).table.map (·.1) = node.table.map (·.1) := by
  induction later generalizing node with
  | nil => rfl
  | cons e later ih =>
    obtain ⟨w, f, m⟩ := e
    obtain ⟨t, hn, ht⟩ := process_touches w node f m
    have hstep : afterMessages node ((w, f, m) :: later) = afterMessages (processMessage w node f m).node later := rfl
    have hk : t.map (·.1) = node.table.map (·.1) := by
      cases ht with
      | nothing => rfl
      | own g hg => exact update_keys _ _ _
      | banned => exact update_keys _ _ _
      | told p hp => rw [told_full w _ _ h]
    have hl : t.length = node.table.length := by
      have := congrArg List.length hk
      simpa using this
    rw [hstep, hn, ih { node with table := t } (by show 10001 ≤ t.length; omega)]
    exact hk

/-- The table after a known sender has told lists of addresses. -/
theorem tells {E : Env} (w : World) (node : Node E) (f : Sender) (known : Known node f) (ms : List PeerAddrs) :
    (afterMessages node (ms.map fun m => (w, f, .peerAddrs m))).table =
      (ms.flatMap (·.peers)).foldl (fun t a => add w.resolve t (w.addrString a)) node.table := by
  induction ms generalizing node with
  | nil => rfl
  | cons m ms ih =>
    have hn : (processMessage w node f (.peerAddrs m)).node =
        { node with table := m.peers.foldl (fun t a => add w.resolve t (w.addrString a)) node.table } := by
      rw [process_known _ node f known]; rfl
    have hstep : afterMessages node ((m :: ms).map fun m => (w, f, .peerAddrs m)) =
        afterMessages (processMessage w node f (.peerAddrs m)).node (ms.map fun m => (w, f, .peerAddrs m)) := rfl
    rw [hstep, hn, ih { node with table := _ } (foldl_keeps w m.peers node.table _ known), List.flatMap_cons, List.foldl_append]

/-- The ports 256 i + 1, …, 256 i + 256 of a host, none above 10001. -/
def portsOf (a b c d : UInt8) (i : Nat) : PeerAddrs :=
  ⟨(List.range (min 256 (10001 - 256 * i))).map fun k => ⟨[a, b, c, d], (256 * i + k + 1 : Nat)⟩⟩

theorem portsOf_mem (a b c d : UInt8) (n : Nat) (h : n < 10001) :
    ⟨[a, b, c, d], (n + 1 : Nat)⟩ ∈ ((List.range 40).map (portsOf a b c d)).flatMap (·.peers) := by
  refine List.mem_flatMap.2 ⟨portsOf a b c d (n / 256), List.mem_map.2 ⟨n / 256, List.mem_range.2 (by omega), rfl⟩, ?_⟩
  refine List.mem_map.2 ⟨n % 256, List.mem_range.2 (by omega), ?_⟩
  rw [Nat.div_add_mod]

theorem portsOf_ipv4 (a b c d : UInt8) (i : Nat) (x : TCPAddr) (hx : x ∈ (portsOf a b c d i).peers) :
    IPv4 x ∧ x.ip = [a, b, c, d] := by
  obtain ⟨k, hk, rfl⟩ := List.mem_map.1 hx
  rw [List.mem_range] at hk
  refine ⟨⟨rfl, Int.natCast_nonneg _, ?_⟩, rfl⟩
  exact Int.ofNat_lt.2 (by show 256 * i + k + 1 < 65536; omega)

/-- **C145 is false of the code.** The node of cmd/node has handled any messages. Any peer it knows can then send forty
messages with 70167 bytes, all about one host it chooses, after which the node learns no address any more, whatever
anybody sends. -/
theorem C145_refuted {E : Env} (r : Resolver) (order : Table → Table) (closing : Nat → Bool) (before : History E)
    (f : Sender) (known : Known (afterMessages (shipped E r) before) f) (a b c d : UInt8)
    (hmc : ¬ (224 ≤ a.toNat ∧ a.toNat < 240)) :
    ∃ (attack : History E) (bodies : List Bytes),
      List.Forall₂ (fun e body => e.1 = world r order closing ∧ e.2.1 = f ∧ Carries E 6 body (some e.2.2) ∧
        ∀ m, e.2.2 = .peerAddrs m → ∀ x ∈ m.peers, x.ip = [a, b, c, d]) attack bodies ∧
      attack.length = 40 ∧ (bodies.map List.length).sum = 70167 ∧
      (afterMessages (shipped E r) (before ++ attack)).table.length = 10001 ∧
      ∀ later, (afterMessages (shipped E r) (before ++ attack ++ later)).table.map (·.1) =
        (afterMessages (shipped E r) (before ++ attack)).table.map (·.1) := by
  have hser : ∀ i, ∃ v, v.length = 4 + 7 * min 256 (10001 - 256 * i) ∧ PeerAddrs.read v = (.ok (portsOf a b c d i), []) := by
    intro i
    have hlen : (portsOf a b c d i).peers.length = min 256 (10001 - 256 * i) := by simp [portsOf]
    obtain ⟨v, -, hl, hr⟩ := C22_list_partial (portsOf a b c d i) (by omega) fun x hx => (portsOf_ipv4 a b c d i x hx).1
    have := hr []
    rw [List.append_nil] at this
    exact ⟨v, by rw [hl, hlen], this⟩
  choose body hbl hbr using hser
  have happ : ∀ (n : Node E) (h1 h2 : History E), afterMessages n (h1 ++ h2) = afterMessages (afterMessages n h1) h2 :=
    fun n h1 h2 => List.foldl_append
  have hfull : 10001 ≤ (afterMessages (shipped E r) (before ++ ((List.range 40).map (portsOf a b c d)).map fun m =>
      (world r order closing, f, .peerAddrs m))).table.length := by
    rw [happ, tells _ _ _ known]
    by_contra hlt
    have hin : ∀ n, n < 10001 → written a b c d (UInt16.ofNat (n + 1)) ∈
        ((((List.range 40).map (portsOf a b c d)).flatMap (·.peers)).foldl
          (fun t a => add (world r order closing).resolve t ((world r order closing).addrString a))
          (afterMessages (shipped E r) before).table).map (·.1) := by
      intro n hn
      have ht : (UInt16.ofNat (n + 1)).toNat = n + 1 := by
        rw [UInt16.toNat_ofNat', Nat.mod_eq_of_lt (by omega)]
      have hmem := portsOf_mem a b c d n hn
      rw [← ht] at hmem
      have htxt := (C106_text r order closing a b c d (UInt16.ofNat (n + 1))).1
      have := told_or_full (world r order closing) _ (afterMessages (shipped E r) before).table _ hmem (by
        rw [htxt, admissible_written]
        refine ⟨fun h0 => ?_, hmc⟩
        rw [h0] at ht
        have : (0 : UInt16).toNat = 0 := rfl
        omega)
      rw [htxt] at this
      exact this.resolve_right hlt
    have hnd : ((List.range 10001).map fun n => written a b c d (UInt16.ofNat (n + 1))).Nodup := by
      refine (List.nodup_map_iff_inj_on List.nodup_range).2 fun n hn m hm he => ?_
      rw [List.mem_range] at hn hm
      have := congrArg UInt16.toNat (C106_distinct _ _ _ _ _ _ _ _ _ _ he).2.2.2.2
      rw [UInt16.toNat_ofNat', UInt16.toNat_ofNat', Nat.mod_eq_of_lt (by omega), Nat.mod_eq_of_lt (by omega)] at this
      omega
    have hsub := (List.subperm_of_subset hnd fun k hk => by
      obtain ⟨n, hn, rfl⟩ := List.mem_map.1 hk
      exact hin n (List.mem_range.1 hn)).length_le
    rw [List.length_map, List.length_map, List.length_range] at hsub
    exact hlt hsub
  refine ⟨((List.range 40).map (portsOf a b c d)).map fun m => (world r order closing, f, .peerAddrs m),
    (List.range 40).map body, ?_, by simp, ?_, ?_, ?_⟩
  · rw [List.map_map, List.forall₂_map_left_iff, List.forall₂_map_right_iff, List.forall₂_same]
    intro i _
    refine ⟨rfl, rfl, .peerAddrs _ _ _ (hbr i), ?_⟩
    intro m hm x hx
    cases hm
    exact (portsOf_ipv4 a b c d i x hx).2
  · rw [List.map_map, show List.length ∘ body = fun i => 4 + 7 * min 256 (10001 - 256 * i) from funext hbl]
    decide
  · refine Nat.le_antisymm ?_ hfull
    have hu : UniqueKeys (shipped E r).table := by rw [shipped_table]; simp [UniqueKeys]
    exact (C96_history (shipped E r) hu (by rw [shipped_table]; simp) _).2.2.2.2.2.1
  · intro later
    rw [happ]
    exact C145_full _ hfull later

/-- `C145_refuted` applies to the configured peer of a node that was just started. -/
example (E : Env) (r : Resolver) : Known (afterMessages (shipped E r) []) ⟨"127.0.0.1:13414", 0, "127.0.0.1:13414"⟩ := by
  have e : written 127 0 0 1 13414 = "127.0.0.1:13414" := by decide
  show _ ∈ (shipped E r).table.map (·.1)
  rw [shipped_table, e]
  simp

end Gringo.Props
