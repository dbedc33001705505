import Verif.Spec.Pool
import Verif.Props.Messages
import Mathlib.Data.List.Perm.Basic
import Mathlib.Data.List.Lookmap
import Mathlib.Tactic.IntervalCases
/-
C54-C56, C59, C62: the tables of the peer pool.
-/
namespace Gringo.Props
open Gringo.Spec Gringo.P2P

/-! ### Lookup and update -/

theorem find_some_mem {t : Table} {a : String} {i : PeerInfo} (h : t.find a = some i) : (a, i) ∈ t := by
  unfold Table.find at h
  induction t with
  | nil => cases h
  | cons e t ih =>
    obtain ⟨k, v⟩ := e
    rw [List.lookup_cons] at h
    by_cases hk : a = k
    · subst hk; simp at h; subst h; exact List.mem_cons_self
    · have : (a == k) = false := by simpa using hk
      rw [this] at h
      exact List.mem_cons_of_mem _ (ih h)

theorem find_isSome_iff (t : Table) (a : String) : (t.find a).isSome = true ↔ a ∈ t.map (·.1) := by
  unfold Table.find
  induction t with
  | nil => simp
  | cons e t ih =>
    obtain ⟨k, v⟩ := e
    rw [List.lookup_cons]
    by_cases hk : a = k
    · subst hk; simp
    · have : (a == k) = false := by simpa using hk
      rw [this]
      simp only at ih ⊢
      rw [ih]; simp [hk]

theorem mem_find {t : Table} (hu : UniqueKeys t) {a : String} {i : PeerInfo} (h : (a, i) ∈ t) :
    t.find a = some i := by
  unfold Table.find
  induction t with
  | nil => cases h
  | cons e t ih =>
    obtain ⟨k, v⟩ := e
    unfold UniqueKeys at hu
    rw [List.map_cons, List.nodup_cons] at hu
    rw [List.lookup_cons]
    rcases List.mem_cons.1 h with h' | h'
    · cases h'; simp
    · have hk : a ≠ k := by
        rintro rfl
        exact hu.1 (List.mem_map.2 ⟨_, h', rfl⟩)
      have : (a == k) = false := by simpa using hk
      rw [this]
      exact ih hu.2 h'

theorem update_keys (t : Table) (a : String) (f : PeerInfo → PeerInfo) :
    (t.update a f).map (·.1) = t.map (·.1) := by
  unfold Table.update
  rw [List.map_map]
  apply List.map_congr_left
  intro e _
  simp only [Function.comp]
  split <;> rfl

theorem find_update (t : Table) (a b : String) (f : PeerInfo → PeerInfo) :
    (t.update a f).find b = if b = a then (t.find b).map f else t.find b := by
  unfold Table.update Table.find
  induction t with
  | nil => simp
  | cons e t ih =>
    obtain ⟨k, v⟩ := e
    rw [List.map_cons]
    by_cases hk : b = k
    · subst hk
      by_cases hb : b = a
      · subst hb; simp
      · simp [hb]
    · have h2 : (b == k) = false := by simpa using hk
      have h3 : List.lookup b ((k, v) :: t) = List.lookup b t := by rw [List.lookup_cons, h2]
      rw [h3, ← ih]
      split <;> rw [List.lookup_cons, h2]

/-! ### C54 -/

theorem peersLoop_eq (resolve : String → Option TCPAddr) (caps : UInt32) (order : Table) (acc : List TCPAddr)
    (hacc : acc.length < 256) :
    peersLoop resolve caps acc order = (acc ++ shareableAddrs resolve order caps).take 256 := by
  induction order generalizing acc with
  | nil =>
    simp only [peersLoop, shareableAddrs, List.filter_nil, List.filterMap_nil, List.append_nil]
    rw [List.take_of_length_le (by omega)]
  | cons e t ih =>
    obtain ⟨addr, i⟩ := e
    unfold peersLoop
    by_cases h1 : i.status = .banned ∨ i.status = .failedConn
    · rw [if_pos h1, ih acc hacc]
      have : ¬ Shareable caps i := by
        rintro ⟨a, b, -⟩; rcases h1 with h | h
        · exact a h
        · exact b h
      simp [shareableAddrs, this]
    · rw [if_neg h1]
      by_cases h2 : i.capabilities &&& caps ≠ caps
      · rw [if_pos h2, ih acc hacc]
        have : ¬ Shareable caps i := fun h => h2 h.2.2
        simp [shareableAddrs, this]
      · rw [if_neg h2]
        have hs : Shareable caps i := by
          refine ⟨fun h => h1 (.inl h), fun h => h1 (.inr h), ?_⟩
          exact not_not.1 h2
        have e0 : shareableAddrs resolve ((addr, i) :: t) caps =
            (resolve addr).toList ++ shareableAddrs resolve t caps := by
          simp only [shareableAddrs, List.filter_cons, hs, decide_true, if_true, List.filterMap_cons]
          cases resolve addr <;> rfl
        rw [e0]
        cases resolve addr with
        | none =>
          simp only
          rw [if_neg (by unfold MaxPeerAddrs; omega), ih acc hacc]
          rfl
        | some a =>
          simp only
          by_cases h3 : (acc ++ [a]).length = MaxPeerAddrs
          · rw [if_pos h3]
            have h4 : (acc ++ [a]).length = 256 := h3
            show _ = List.take 256 (acc ++ ([a] ++ _))
            rw [← List.append_assoc, List.take_append_of_le_length (by omega), List.take_of_length_le (by omega)]
          · rw [if_neg h3]
            have h4 : (acc ++ [a]).length < 256 := by
              have : (acc ++ [a]).length ≠ 256 := h3
              rw [List.length_append, List.length_singleton] at this ⊢
              omega
            rw [ih _ h4]
            show _ = List.take 256 (acc ++ ([a] ++ _))
            rw [← List.append_assoc]

/-- **C54.** Whatever the iteration order: at most 256 addresses, each of them the address of a shareable
entry, and if it is fewer than 256, they are those of all shareable entries. -/
theorem C54_peers (resolve : String → Option TCPAddr) (t order : Table) (ho : OrderOf order t) (caps : UInt32) :
    (peers resolve order caps).peers.length ≤ 256 ∧
    (∀ a ∈ (peers resolve order caps).peers, ∃ addr i, (addr, i) ∈ t ∧ Shareable caps i ∧ resolve addr = some a) ∧
    ((peers resolve order caps).peers.length < 256 →
      (peers resolve order caps).peers.Perm (shareableAddrs resolve t caps)) := by
  have e : (peers resolve order caps).peers = (shareableAddrs resolve order caps).take 256 := by
    unfold peers
    rw [peersLoop_eq resolve caps order [] (by simp), List.nil_append]
  rw [e]
  refine ⟨by rw [List.length_take]; omega, ?_, ?_⟩
  · intro a ha
    have := List.mem_of_mem_take ha
    simp only [shareableAddrs, List.mem_filterMap, List.mem_filter, decide_eq_true_eq] at this
    obtain ⟨⟨addr, i⟩, ⟨h1, h2⟩, h3⟩ := this
    exact ⟨addr, i, ho.mem_iff.1 h1, h2, h3⟩
  · intro hlt
    rw [List.length_take] at hlt
    rw [List.take_of_length_le (by omega)]
    exact (ho.filter _).filterMap _

/-- The bytes that are written for an address. -/
theorem serialize_eq (a : TCPAddr) : ∃ ip : Bytes, (to4 a.ip = some ip ∨ to4 a.ip = none ∧ ip = a.ip) ∧
    serializeTCPAddr a = if ip.length = 4 then .ok ([0] ++ ip ++ be16 (portBits a.port))
      else if ip.length = 16 then .ok ([1] ++ ip.take 8 ++ be16 (portBits a.port)) else .fatal "invalid netaddr" := by
  unfold serializeTCPAddr
  cases to4 a.ip with
  | none => exact ⟨a.ip, .inr ⟨rfl, rfl⟩, rfl⟩
  | some ip => exact ⟨ip, .inl rfl, rfl⟩

theorem to4_length {ip x : Bytes} (h : to4 ip = some x) : x.length = 4 := by
  unfold to4 at h
  split at h
  · cases h; assumption
  · split at h
    · cases h; rw [List.length_drop]; omega
    · cases h

theorem serializeAll_ok (l : List TCPAddr) (h : ∀ a ∈ l, a.ip.length = 4 ∨ a.ip.length = 16) :
    ∃ b, serializeAll l = .ok b := by
  induction l with
  | nil => exact ⟨[], rfl⟩
  | cons a t ih =>
    obtain ⟨b, hb⟩ := ih fun x hx => h x (List.mem_cons_of_mem _ hx)
    obtain ⟨c, hc⟩ : ∃ c, serializeTCPAddr a = .ok c := by
      have hl := h a List.mem_cons_self
      obtain ⟨ip, hip, e⟩ := serialize_eq a
      rw [e]
      have hl' : ip.length = 4 ∨ ip.length = 16 := by
        rcases hip with h | ⟨-, rfl⟩
        · exact .inl (to4_length h)
        · exact hl
      rcases hl' with h | h
      · exact ⟨_, if_pos h⟩
      · exact ⟨_, by rw [if_neg (by omega), if_pos h]⟩
    exact ⟨c ++ b, by simp [serializeAll, hb, hc]⟩

theorem serializeAll_fatal (l : List TCPAddr) (a : TCPAddr) (ha : a ∈ l) (h : a.ip = []) :
    ∃ m, serializeAll l = .fatal m := by
  have h0 : ∀ x : TCPAddr, (∃ b, serializeTCPAddr x = .ok b) ∨ ∃ m, serializeTCPAddr x = .fatal m := by
    intro x
    obtain ⟨ip, -, e⟩ := serialize_eq x
    rw [e]
    by_cases h1 : ip.length = 4
    · exact .inl ⟨_, if_pos h1⟩
    · rw [if_neg h1]
      by_cases h2 : ip.length = 16
      · exact .inl ⟨_, if_pos h2⟩
      · exact .inr ⟨_, if_neg h2⟩
  induction l with
  | nil => cases ha
  | cons x t ih =>
    rcases List.mem_cons.1 ha with rfl | ha
    · exact ⟨"invalid netaddr", by simp [serializeAll, serializeTCPAddr, to4, h]⟩
    · obtain ⟨m, hm⟩ := ih ha
      rcases h0 x with ⟨b, hb⟩ | ⟨m', hm'⟩
      · exact ⟨m, by simp [serializeAll, hb, hm]⟩
      · exact ⟨m', by simp [serializeAll, hm']⟩

/-- **C54, serialisation, the part that holds**: the answer can be serialised if the addresses resolve to
real IP addresses. -/
theorem C54_serialisable_partial (resolve : String → Option TCPAddr) (t order : Table) (ho : OrderOf order t)
    (caps : UInt32)
    (hip : ∀ e ∈ t, ∀ a, resolve e.1 = some a → a.ip.length = 4 ∨ a.ip.length = 16) :
    ∃ b, (peers resolve order caps).bytes = .ok b := by
  obtain ⟨h1, h2, -⟩ := C54_peers resolve t order ho caps
  obtain ⟨b, hb⟩ := serializeAll_ok (peers resolve order caps).peers (by
    intro a ha
    obtain ⟨addr, i, hm, -, hr⟩ := h2 a ha
    exact hip _ hm a hr)
  refine ⟨be32 (UInt32.ofNat (peers resolve order caps).peers.length) ++ b, ?_⟩
  unfold PeerAddrs.bytes
  rw [if_neg (by unfold MaxPeerAddrs; omega), hb]
  rfl

/-- **C54, serialisation is false in general.** If a shareable entry's address has no host part (like
":13414", which resolves to a nil IP), then in a table of at most 256 entries the answer ends the process,
whatever the iteration order. -/
theorem C54_refuted (resolve : String → Option TCPAddr) (t order : Table) (ho : OrderOf order t) (caps : UInt32)
    (hsize : t.length ≤ 255) (addr : String) (i : PeerInfo) (hm : (addr, i) ∈ t) (hs : Shareable caps i)
    (port : Int) (hr : resolve addr = some ⟨[], port⟩) :
    ∃ m, (peers resolve order caps).bytes = .fatal m := by
  obtain ⟨h1, -, h3⟩ := C54_peers resolve t order ho caps
  have hlen : (peers resolve order caps).peers.length < 256 := by
    have e : (peers resolve order caps).peers = (shareableAddrs resolve order caps).take 256 := by
      unfold peers
      rw [peersLoop_eq resolve caps order [] (by simp), List.nil_append]
    rw [e, List.length_take]
    have h4 : (shareableAddrs resolve order caps).length ≤ order.length :=
      le_trans (List.length_filterMap_le _ _) (List.length_filter_le _ _)
    rw [ho.length_eq] at h4
    omega
  have hin : (⟨[], port⟩ : TCPAddr) ∈ (peers resolve order caps).peers := by
    rw [(h3 hlen).mem_iff]
    simp only [shareableAddrs, List.mem_filterMap, List.mem_filter, decide_eq_true_eq]
    exact ⟨(addr, i), ⟨hm, hs⟩, hr⟩
  obtain ⟨m, hm⟩ := serializeAll_fatal _ _ hin rfl
  exact ⟨m, by unfold PeerAddrs.bytes; rw [if_neg (by unfold MaxPeerAddrs; omega), hm]; rfl⟩

/-- Such a table arises from one call of `Add`. -/
example : ∃ m, (peers (fun a => if a = ":13414" then some ⟨[], 13414⟩ else none)
    (add (fun a => if a = ":13414" then some ⟨[], 13414⟩ else none) [] ":13414") 0).bytes = .fatal m :=
  C54_refuted _ [(":13414", PeerInfo.fresh)] _ (List.Perm.refl _) 0 (by simp) ":13414" PeerInfo.fresh
    (by simp) (by decide) 13414 (by simp)

/-! ### C55 -/

theorem isMulticast_iff (a : TCPAddr) : isMulticast a.ip = true ↔
    (∃ x y z v : UInt8, (a.ip = [x, y, z, v] ∨ a.ip = [0, 0, 0, 0, 0, 0, 0, 0, 0, 0, 255, 255, x, y, z, v]) ∧
      224 ≤ x.toNat ∧ x.toNat < 240) ∨ (∃ rest : Bytes, rest.length = 15 ∧ a.ip = 255 :: rest) := by
  have hmask : ∀ x : UInt8, (x &&& 0xf0 == 0xe0) = true ↔ 224 ≤ x.toNat ∧ x.toNat < 240 := by
    have : ∀ n : Fin 256, ((UInt8.ofNat n.val) &&& 0xf0 == 0xe0) = true ↔ 224 ≤ n.val ∧ n.val < 240 := by
      decide +kernel
    intro x
    have := this ⟨x.toNat, x.toNat_lt⟩
    simpa using this
  obtain ⟨ip, port⟩ := a
  simp only
  unfold isMulticast to4
  by_cases h4 : ip.length = 4
  · rw [if_pos h4]
    match ip, h4 with
    | [x, y, z, v], _ =>
      simp only [List.headD_cons]
      rw [hmask]
      constructor
      · intro h; exact .inl ⟨x, y, z, v, .inl rfl, h⟩
      · rintro (⟨x', y', z', v', h | h, hr⟩ | ⟨rest, hl, h⟩)
        · simp at h; rw [h.1]; exact hr
        · simp at h
        · simp at h; rw [← h.2] at hl; simp at hl
  · rw [if_neg h4]
    by_cases h16 : ip.length = 16 ∧ ip.take 10 = List.replicate 10 0 ∧ (ip.drop 10).take 2 = [255, 255]
    · rw [if_pos h16]
      obtain ⟨hl, ht, hd⟩ := h16
      have hlast : (ip.drop 12).length = 4 := by rw [List.length_drop]; omega
      have hsplit : ip = List.replicate 10 0 ++ ([255, 255] ++ ip.drop 12) := by
        conv_lhs => rw [← List.take_append_drop 10 ip, ht, ← List.take_append_drop 2 (ip.drop 10), hd,
          List.drop_drop]
      generalize ip.drop 12 = l at hlast hsplit ⊢
      match l, hlast with
      | [x, y, z, v], _ =>
        simp only [List.headD_cons]
        rw [hmask]
        constructor
        · intro h; exact .inl ⟨x, y, z, v, .inr hsplit, h⟩
        · rintro (⟨x', y', z', v', h | h, hr⟩ | ⟨rest, hl, h⟩)
          · rw [h] at hl; simp at hl
          · rw [h] at hsplit; simp [List.replicate] at hsplit; rw [← hsplit.1]; exact hr
          · rw [h] at hsplit; simp [List.replicate] at hsplit
    · rw [if_neg h16]
      simp only [Bool.and_eq_true, beq_iff_eq]
      constructor
      · rintro ⟨hl, hh⟩
        cases ip with
        | nil => simp at hl
        | cons x r => simp at hh hl; subst hh; exact .inr ⟨r, hl, rfl⟩
      · rintro (⟨x', y', z', v', h | h, hr⟩ | ⟨rest, hl, h⟩)
        · rw [h] at h4; simp at h4
        · rw [h] at h16; simp [List.replicate] at h16
        · rw [h]; simp [hl]

theorem fresh_blank : PeerInfo.fresh = blankEntry := by decide

/-- **C55, one call.** `Add` either leaves the table alone, or appends one new, blank entry for an
admissible address that was not in the table, which then has at most 10000 entries. Conversely such an
address is added. -/
theorem C55_add (resolve : String → Option TCPAddr) (t : Table) (addr : String) :
    (Admissible resolve addr ∧ t.length ≤ 10000 ∧ addr ∉ t.map (·.1) →
      add resolve t addr = t ++ [(addr, blankEntry)]) ∧
    (¬ (Admissible resolve addr ∧ t.length ≤ 10000 ∧ addr ∉ t.map (·.1)) → add resolve t addr = t) := by
  rw [← fresh_blank]
  unfold add
  cases hr : resolve addr with
  | none =>
    refine ⟨?_, fun _ => rfl⟩
    rintro ⟨⟨a, ha, -⟩, -⟩
    rw [hr] at ha; cases ha
  | some a =>
    have hadm : Admissible resolve addr ↔ a.port ≠ 0 ∧ isMulticast a.ip ≠ true := by
      unfold Admissible
      rw [Ne, Ne, isMulticast_iff, not_or]
      constructor
      · rintro ⟨a', ha, h⟩
        rw [hr] at ha; cases ha; exact h
      · intro h; exact ⟨a, hr, h⟩
    rw [hadm, ← find_isSome_iff]
    simp only
    by_cases h1 : isMulticast a.ip = true
    · rw [if_pos h1]; exact ⟨fun h => absurd h1 h.1.2, fun _ => rfl⟩
    rw [if_neg h1]
    by_cases h2 : a.port = 0
    · rw [if_pos h2]; exact ⟨fun h => absurd h2 h.1.1, fun _ => rfl⟩
    rw [if_neg h2]
    by_cases h3 : t.length > maxPeersTableSize
    · rw [if_pos h3]
      refine ⟨fun h => ?_, fun _ => rfl⟩
      unfold maxPeersTableSize at h3; omega
    rw [if_neg h3]
    by_cases h4 : (t.find addr).isSome = true
    · rw [if_pos h4]; exact ⟨fun h => absurd h4 h.2.2, fun _ => rfl⟩
    rw [if_neg h4]
    refine ⟨fun _ => rfl, fun h => ?_⟩
    exact absurd ⟨⟨h2, h1⟩, by unfold maxPeersTableSize at h3; omega, h4⟩ h

/-- A history of `Add` calls; address resolution may answer differently every time. -/
def addAll (t : Table) (calls : List ((String → Option TCPAddr) × String)) : Table :=
  calls.foldl (fun t c => add c.1 t c.2) t

theorem add_prefix (resolve : String → Option TCPAddr) (t : Table) (addr : String) :
    ∃ l, add resolve t addr = t ++ l ∧ (l = [] ∨ (l = [(addr, PeerInfo.fresh)] ∧ Admissible resolve addr ∧
      t.length ≤ 10000 ∧ addr ∉ t.map (·.1))) := by
  by_cases h : Admissible resolve addr ∧ t.length ≤ 10000 ∧ addr ∉ t.map (·.1)
  · exact ⟨_, (C55_add resolve t addr).1 h, .inr ⟨by rw [fresh_blank], h⟩⟩
  · exact ⟨[], by rw [(C55_add resolve t addr).2 h]; simp, .inl rfl⟩

/-- **C55, histories.** After any calls of `Add`, all earlier entries are as they were, every new one is blank
and was admissible when it was added, addresses stay unique, and there are at most 10001 entries. The property
asks for 10000, which is false: see `C55_refuted`. -/
theorem C55_histories_partial (t : Table) (hu : UniqueKeys t) (hsize : t.length ≤ 10001)
    (calls : List ((String → Option TCPAddr) × String)) :
    ∃ new, addAll t calls = t ++ new ∧ UniqueKeys (addAll t calls) ∧ (addAll t calls).length ≤ 10001 ∧
      new.length ≤ calls.length ∧
      ∀ e ∈ new, e.2 = blankEntry ∧ ∃ c ∈ calls, c.2 = e.1 ∧ Admissible c.1 e.1 := by
  rw [← fresh_blank]
  induction calls generalizing t with
  | nil => exact ⟨[], by simp [addAll], hu, hsize, by simp, by simp⟩
  | cons c calls ih =>
    obtain ⟨l, hl, hcase⟩ := add_prefix c.1 t c.2
    have hstep : UniqueKeys (t ++ l) ∧ (t ++ l).length ≤ 10001 := by
      rcases hcase with rfl | ⟨rfl, -, h2, h3⟩
      · simpa using ⟨hu, hsize⟩
      · refine ⟨?_, by simp; omega⟩
        unfold UniqueKeys at hu ⊢
        rw [List.map_append, List.nodup_append]
        refine ⟨hu, by simp, ?_⟩
        intro a ha b hb he
        simp at hb
        exact h3 (by rw [← hb, ← he]; exact ha)
    obtain ⟨new, h1, h2, h3, h4, h5⟩ := ih (t ++ l) hstep.1 hstep.2
    have e : addAll t (c :: calls) = addAll (t ++ l) calls := by
      simp only [addAll, List.foldl_cons, hl]
    rw [e]
    refine ⟨l ++ new, by rw [h1, List.append_assoc], h2, h3, ?_, ?_⟩
    · have : l.length ≤ 1 := by rcases hcase with rfl | ⟨rfl, -⟩ <;> simp
      rw [List.length_append, List.length_cons]; omega
    · intro x hx
      rcases List.mem_append.1 hx with hx | hx
      · rcases hcase with rfl | ⟨rfl, ha, -⟩
        · cases hx
        · simp at hx
          subst hx
          exact ⟨rfl, c, List.mem_cons_self, rfl, ha⟩
      · obtain ⟨g1, c', g2, g3⟩ := h5 x hx
        exact ⟨g1, c', List.mem_cons_of_mem _ g2, g3⟩

/-- **C55, the bound of 10000 is false of the code.** Adding 10001 different admissible addresses to an empty
table gives 10001 entries. -/
theorem C55_refuted (resolve : String → Option TCPAddr) (addrs : List String) (hn : addrs.Nodup)
    (hl : addrs.length = 10001) (ha : ∀ a ∈ addrs, Admissible resolve a) :
    (addAll [] (addrs.map fun a => (resolve, a))).length = 10001 := by
  suffices h : ∀ (l : List String) (t : Table), l.Nodup → t.length + l.length ≤ 10001 →
      (∀ a ∈ l, Admissible resolve a ∧ a ∉ t.map (·.1)) →
      (addAll t (l.map fun a => (resolve, a))).length = t.length + l.length by
    have := h addrs [] hn (by simp [hl]) (fun a h => ⟨ha a h, by simp⟩)
    simpa [hl] using this
  intro l
  induction l with
  | nil => intro t _ _ _; simp [addAll]
  | cons x l ih =>
    intro t hn hlen hadm
    rw [List.nodup_cons] at hn
    rw [List.length_cons] at hlen
    have hx := hadm x List.mem_cons_self
    have e := (C55_add resolve t x).1 ⟨hx.1, by omega, hx.2⟩
    simp only [addAll, List.map_cons, List.foldl_cons, e]
    have := ih (t ++ [(x, blankEntry)]) hn.2 (by simp; omega) (by
      intro a h
      refine ⟨(hadm a (List.mem_cons_of_mem _ h)).1, ?_⟩
      rw [List.map_append, List.mem_append, not_or]
      refine ⟨(hadm a (List.mem_cons_of_mem _ h)).2, ?_⟩
      simp
      rintro rfl
      exact hn.1 h)
    simp only [addAll] at this
    rw [this]
    simp; omega

/-- There are 10001 different addresses. -/
example : ∃ (addrs : List String), addrs.Nodup ∧ addrs.length = 10001 ∧
    ∀ a ∈ addrs, Admissible (fun _ => some ⟨[127, 0, 0, 1], 13414⟩) a := by
  refine ⟨(List.range 10001).map fun n => String.ofList (List.replicate n 'a'), ?_, by simp, ?_⟩
  · apply List.Nodup.map _ List.nodup_range
    intro a b h
    have := congrArg (fun s => s.toList.length) h
    simpa using this
  · intro a _
    refine ⟨_, rfl, by simp, ?_, ?_⟩
    · rintro ⟨x, y, z, v, h | h, h1, h2⟩
      · simp at h; rw [← h.1] at h1; simp at h1
      · simp at h
    · rintro ⟨r, h1, h2⟩
      simp at h2

/-! ### C56 -/

/-- **C56 is false of the code.** Banning a known address never returns: it panics (writing to a nil map, or
because the entry was never connected), or it blocks. And nothing is ever reported as banned. -/
theorem C56_refuted (t : Table) (addr : String) (known : addr ∈ t.map (·.1)) (own : Option Nat)
    (closing : Nat → Bool) :
    (ban t addr own closing).2 ≠ .returned ∧ isBan (ban t addr own closing).1 addr = false := by
  refine ⟨?_, rfl⟩
  rw [← find_isSome_iff] at known
  unfold ban
  cases h : t.find addr with
  | none => rw [h] at known; cases known
  | some i =>
    simp only
    cases i.peer with
    | none => simp
    | some c => simp only; split <;> simp

theorem ban_unknown {t : Table} {addr : String} (h : t.find addr = none) (own : Option Nat)
    (closing : Nat → Bool) : ban t addr own closing = (t, .returned) := by
  unfold ban; rw [h]

theorem ban_known {t : Table} {addr : String} {i : PeerInfo} (h : t.find addr = some i) (own : Option Nat)
    (closing : Nat → Bool) :
    (ban t addr own closing).1 = t.update addr fun i => { i with status := .banned } := by
  unfold ban
  rw [h]
  simp only
  cases i.peer with
  | none => rfl
  | some c => simp only; split <;> rfl

/-- **C56, the part that holds**: banning an unknown address returns and changes nothing; a banned known
entry is at least marked, and no other entry is touched. -/
theorem C56_marks_partial (t : Table) (addr other : String) (own : Option Nat) (closing : Nat → Bool) :
    (addr ∉ t.map (·.1) → ban t addr own closing = (t, .returned)) ∧
    (∀ i, t.find addr = some i → (ban t addr own closing).1.find addr = some { i with status := .banned }) ∧
    (other ≠ addr → (ban t addr own closing).1.find other = t.find other) := by
  cases h : t.find addr with
  | none =>
    rw [ban_unknown h]
    exact ⟨fun _ => rfl, (fun i hi => by simp at hi), fun _ => rfl⟩
  | some i =>
    rw [ban_known h]
    refine ⟨fun hk => ?_, fun j hj => ?_, fun ho => ?_⟩
    · exact absurd ((find_isSome_iff t addr).1 (by rw [h]; rfl)) hk
    · cases hj
      rw [find_update, if_pos rfl, h]; rfl
    · rw [find_update, if_neg ho]

example : (ban [("a:1", { PeerInfo.fresh with peer := some 0, status := .connected })] "a:1" none
    fun _ => false).2 = .panics "assignment to entry in nil map" := by decide

/-! ### C59 -/

/-- **C59.** Whatever the iteration orders, if the choice is a table entry, it is dialable, and it is a failed
one only if there is no new or disconnected one. If nothing is chosen, there is nothing to dial (the table
having no empty address). -/
theorem C59_choice (t order1 order2 : Table) (h1 : OrderOf order1 t) (h2 : OrderOf order2 t)
    (hne : "" ∉ t.map (·.1)) :
    let addr := notConnected order1 order2
    (addr = "" → ∀ e ∈ t, ¬ Dialable e.2) ∧
    (addr ≠ "" → ∃ i, (addr, i) ∈ t ∧ Dialable i ∧ i.status ≠ .banned ∧ i.status ≠ .connected ∧
      (i.status = .failedConn → ∀ e ∈ t, e.2.status ≠ .new ∧ e.2.status ≠ .disconnected)) := by
  simp only
  unfold notConnected
  have key : ∀ e : String × PeerInfo, e ∈ t → e.1 ≠ "" := by
    intro e he h
    exact hne (h ▸ List.mem_map.2 ⟨e, he, rfl⟩)
  cases hf : order1.find? (fun e => e.2.status = .new ∨ e.2.status = .disconnected) with
  | some e =>
    have hm : e ∈ t := h1.mem_iff.1 (List.mem_of_find?_eq_some hf)
    have hs := List.find?_some hf
    simp only [decide_eq_true_eq] at hs
    refine ⟨fun h => absurd h (key e hm), fun _ => ⟨e.2, hm, ?_, ?_, ?_, ?_⟩⟩
    · rcases hs with h | h
      · exact .inl h
      · exact .inr (.inl h)
    · rcases hs with h | h <;> rw [h] <;> decide
    · rcases hs with h | h <;> rw [h] <;> decide
    · intro h'; rcases hs with h | h <;> rw [h] at h' <;> cases h'
  | none =>
    have hnone : ∀ e ∈ t, e.2.status ≠ .new ∧ e.2.status ≠ .disconnected := by
      intro e he
      have := List.find?_eq_none.1 hf e (h1.mem_iff.2 he)
      simpa using this
    simp only
    cases hg : order2.find? (fun e => e.2.status = .failedConn) with
    | some e =>
      have hm : e ∈ t := h2.mem_iff.1 (List.mem_of_find?_eq_some hg)
      have hs := List.find?_some hg
      simp only [decide_eq_true_eq] at hs
      refine ⟨fun h => absurd h (key e hm), fun _ => ⟨e.2, hm, .inr (.inr hs), ?_, ?_, fun _ => hnone⟩⟩
      · rw [hs]; decide
      · rw [hs]; decide
    | none =>
      refine ⟨fun _ e he => ?_, fun h => absurd rfl h⟩
      have h3 := List.find?_eq_none.1 hg e (h2.mem_iff.2 he)
      have h4 := hnone e he
      rintro (h | h | h)
      · exact h4.1 h
      · exact h4.2 h
      · simp [h] at h3

/-- A table with a failed and a new entry: the new one is chosen. -/
example : notConnected [("a", { PeerInfo.fresh with status := .failedConn }), ("b", PeerInfo.fresh)]
    [("b", PeerInfo.fresh), ("a", { PeerInfo.fresh with status := .failedConn })] = "b" := by decide

/-! ### C62 -/

/-- **C62.** A block is sent to exactly those connected peers whose recorded height or total difficulty is
below the block's. -/
theorem C62_targets (t : Table) (online : List String) (height td : UInt64) (addr : String) (c : Nat) :
    (addr, c) ∈ relayTargets t online height td ↔
      addr ∈ online ∧ ∃ i, t.find addr = some i ∧ i.peer = some c ∧
        (i.height.toNat < height.toNat ∨ i.totalDifficulty.toNat < td.toNat) := by
  unfold relayTargets
  rw [List.mem_filterMap]
  constructor
  · rintro ⟨a, ha, h⟩
    cases hf : t.find a with
    | none => rw [hf] at h; cases h
    | some i =>
      rw [hf] at h
      simp only at h
      split at h
      · rename_i hlt
        cases hp : i.peer with
        | none => rw [hp] at h; cases h
        | some c' =>
          rw [hp] at h
          simp at h
          obtain ⟨rfl, rfl⟩ := h
          exact ⟨ha, i, hf, hp, by simpa [UInt64.lt_iff_toNat_lt] using hlt⟩
      · cases h
  · rintro ⟨ha, i, hf, hp, hlt⟩
    refine ⟨addr, ha, ?_⟩
    rw [hf]
    simp only
    rw [if_pos (by simpa [UInt64.lt_iff_toNat_lt] using hlt), hp]
    rfl

/-- Nobody gets it twice, since `ConnectedPeers` has no address twice. -/
theorem C62_once (t : Table) (online : List String) (hn : online.Nodup) (height td : UInt64) :
    (relayTargets t online height td).Nodup := by
  unfold relayTargets
  apply List.Nodup.filterMap _ hn
  intro a b x ha hb
  have e : ∀ a, x ∈ (match t.find a with
    | some info => if info.height < height ∨ info.totalDifficulty < td then info.peer.map (a, ·) else none
    | none => none) → x.1 = a := by
    intro a h
    split at h
    · split at h
      · rw [Option.mem_def, Option.map_eq_some_iff] at h
        obtain ⟨c, -, rfl⟩ := h
        rfl
      · cases h
    · cases h
  rw [← e a ha, ← e b hb]

example : relayTargets [("a", { PeerInfo.fresh with peer := some 3 }), ("b", { PeerInfo.fresh with height := 9, totalDifficulty := 9, peer := some 4 })]
    ["a", "b"] 5 5 = [("a", 3)] := by decide

end Gringo.Props
