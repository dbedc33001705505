import Verif.Go.Net
import Verif.Props.Session
/-
C106, C107: addresses as text, in messages and in the peer table.
-/
namespace Gringo.Props
open Gringo.Spec Gringo.P2P Gringo.Net

/-! ### Numbers as text -/

theorem digit_spec (d : Nat) (h : d < 10) : isDigit (digit d) = true ∧ (digit d).toNat - 48 = d ∧ digit d ≠ ':' ∧
    digit d ≠ '[' ∧ digit d ≠ ']' ∧ digit d ≠ '+' ∧ digit d ≠ '-' := by
  have : ∀ x : Fin 10, isDigit (digit x.val) = true ∧ (digit x.val).toNat - 48 = x.val ∧ digit x.val ≠ ':' ∧
    digit x.val ≠ '[' ∧ digit x.val ≠ ']' ∧ digit x.val ≠ '+' ∧ digit x.val ≠ '-' := by decide
  exact this ⟨d, h⟩

theorem itoa_digits (n : Nat) : ∀ c ∈ itoa n, ∃ d, d < 10 ∧ c = digit d := by
  induction n using itoa.induct with
  | case1 n h =>
    intro c hc
    rw [itoa, if_pos h] at hc
    exact ⟨n, h, by simpa using hc⟩
  | case2 n h ih =>
    intro c hc
    rw [itoa, if_neg h, List.mem_append] at hc
    rcases hc with hc | hc
    · exact ih c hc
    · exact ⟨n % 10, Nat.mod_lt _ (by decide), by simpa using hc⟩

theorem itoa_cons (n : Nat) : ∃ d s, d < 10 ∧ itoa n = digit d :: s := by
  have hd := itoa_digits n
  cases h : itoa n with
  | nil =>
    rw [itoa] at h
    split at h <;> simp at h
  | cons c s =>
    obtain ⟨d, hd, rfl⟩ := hd c (by rw [h]; simp)
    exact ⟨d, s, hd, rfl⟩

theorem dtoiGo_itoa (n : Nat) (h : n < 0xFFFFFF) (rest : List Char) : dtoiGo 0 (itoa n ++ rest) = dtoiGo n rest := by
  induction n using itoa.induct generalizing rest with
  | case1 n hn =>
    obtain ⟨h1, h2, -⟩ := digit_spec n hn
    rw [itoa, if_pos hn]
    simp only [List.singleton_append, dtoiGo, h1, if_true, h2]
    rw [if_neg (by omega)]
    simp
  | case2 n hn ih =>
    obtain ⟨h1, h2, -⟩ := digit_spec (n % 10) (Nat.mod_lt _ (by decide))
    rw [itoa, if_neg hn, List.append_assoc, ih (by omega)]
    simp only [List.singleton_append, dtoiGo, h1, if_true, h2]
    rw [if_neg (by omega)]
    congr 1
    omega

theorem decimal_itoa (n : Nat) (rest : List Char) : decimal 0 (itoa n ++ rest) = decimal n rest := by
  induction n using itoa.induct generalizing rest with
  | case1 n hn =>
    obtain ⟨h1, h2, -⟩ := digit_spec n hn
    rw [itoa, if_pos hn]
    simp [decimal, h1, h2]
  | case2 n hn ih =>
    obtain ⟨h1, h2, -⟩ := digit_spec (n % 10) (Nat.mod_lt _ (by decide))
    rw [itoa, if_neg hn, List.append_assoc, ih]
    simp only [List.singleton_append, decimal, h1, if_true, h2]
    congr 1
    omega

theorem octet_itoa (a : UInt8) (rest : List Char) (hr : ∀ c s, rest = c :: s → isDigit c = false) :
    octet (itoa a.toNat ++ rest) = some (a, rest) := by
  have ha : a.toNat < 256 := a.toNat_lt
  obtain ⟨d, s, hd, e⟩ := itoa_cons a.toNat
  have h1 : dtoi (itoa a.toNat ++ rest) = dtoiGo 0 (itoa a.toNat ++ rest) := by
    rw [e]
    simp [dtoi, (digit_spec d hd).1]
  have h2 : dtoiGo a.toNat rest = some (a.toNat, rest) := by
    cases rest with
    | nil => rfl
    | cons c s => simp [dtoiGo, hr c s rfl]
  unfold octet
  rw [h1, dtoiGo_itoa _ (by omega), h2]
  simp only
  rw [if_neg (by omega), UInt8.ofNat_toNat]

/-- The sixteen bytes for an IPv4 address. -/
def mapped (a b c d : UInt8) : Bytes := [0, 0, 0, 0, 0, 0, 0, 0, 0, 0, 255, 255, a, b, c, d]

theorem parse_dotted (a b c d : UInt8) : parseIPv4 (dotted [a, b, c, d]) = some (mapped a b c d) := by
  have hdot : ∀ s : List Char, ∀ x t, '.' :: s = x :: t → isDigit x = false := by
    intro s x t h; injection h with h; subst h; rfl
  unfold parseIPv4 dotted
  rw [octet_itoa a _ (hdot _)]
  simp only [Option.bind_eq_bind, Option.bind_some, dot]
  rw [octet_itoa b _ (hdot _)]
  simp only [Option.bind_some]
  rw [octet_itoa c _ (hdot _)]
  simp only [Option.bind_some]
  have := octet_itoa d [] nofun
  rw [List.append_nil] at this
  rw [this]
  rfl

theorem dotted_chars (a b c d : UInt8) (x : Char) (hx : x ∈ dotted [a, b, c, d]) : x ≠ ':' ∧ x ≠ '[' ∧ x ≠ ']' := by
  have h : ∀ n, x ∈ itoa n → x ≠ ':' ∧ x ≠ '[' ∧ x ≠ ']' := by
    intro n h
    obtain ⟨k, hk, rfl⟩ := itoa_digits n x h
    obtain ⟨-, -, h1, h2, h3, -⟩ := digit_spec k hk
    exact ⟨h1, h2, h3⟩
  have hd : x = '.' → x ≠ ':' ∧ x ≠ '[' ∧ x ≠ ']' := by rintro rfl; decide
  simp only [dotted, List.mem_append, List.mem_cons] at hx
  rcases hx with hx | hx | hx | hx | hx | hx | hx
  all_goals first | exact h _ hx | exact hd hx

theorem lastColon_none {s : List Char} (h : ':' ∉ s) : lastColon s = none := by
  induction s with
  | nil => rfl
  | cons c s ih =>
    rw [List.mem_cons, not_or] at h
    simp [lastColon, ih h.2, Ne.symm h.1]

theorem lastColon_append (h p : List Char) (hp : ':' ∉ p) : lastColon (h ++ ':' :: p) = some (h, p) := by
  induction h with
  | nil => simp [lastColon, lastColon_none hp]
  | cons c h ih => simp [lastColon, ih]

theorem itoa_chars {n : Nat} {x : Char} (h : x ∈ itoa n) : x ≠ ':' ∧ x ≠ '[' ∧ x ≠ ']' := by
  obtain ⟨k, hk, rfl⟩ := itoa_digits n x h
  obtain ⟨-, -, h1, h2, h3, -⟩ := digit_spec k hk
  exact ⟨h1, h2, h3⟩

theorem dotted_cons (a b c d : UInt8) : ∃ k s, k < 10 ∧ dotted [a, b, c, d] = digit k :: s := by
  obtain ⟨k, s, hk, e⟩ := itoa_cons a.toNat
  exact ⟨k, s ++ _, hk, by simp only [dotted]; rw [e, List.cons_append]⟩

theorem lookupPort_itoa (r : Resolver) (n : Nat) (h : n ≤ 65535) : lookupPort r (itoa n) = some n := by
  obtain ⟨k, s, hk, e⟩ := itoa_cons n
  obtain ⟨-, -, -, -, -, h1, h2⟩ := digit_spec k hk
  have hd := decimal_itoa n []
  rw [List.append_nil] at hd
  have : parsePort (itoa n) = decimal 0 (itoa n) := by
    rw [e]
    unfold parsePort
    split
    · rename_i t ht; injection ht with ht; exact absurd ht h1
    · rename_i t ht; injection ht with ht; exact absurd ht h2
    · rfl
  unfold lookupPort
  rw [this, hd]
  simp [decimal, h]

/-- The text of an IPv4 address with a port. -/
def ipv4Text (a b c d : UInt8) (port : UInt16) : List Char := dotted [a, b, c, d] ++ ':' :: itoa port.toNat

theorem addrText_four (r : Resolver) (a b c d : UInt8) (port : UInt16) :
    addrText r ⟨[a, b, c, d], port.toNat⟩ = ipv4Text a b c d port := by
  have h0 : ¬ ((port.toNat : Int) < 0) := by omega
  have : ':' ∉ dotted [a, b, c, d] := fun h => (dotted_chars a b c d ':' h).1 rfl
  simp only [addrText, ipText, to4, List.length_cons, List.length_nil, if_true, itoaInt, if_neg h0, joinHostPort, ipv4Text]
  rw [if_neg this]
  rfl

theorem addrText_mapped (r : Resolver) (a b c d : UInt8) (port : UInt16) :
    addrText r ⟨mapped a b c d, port.toNat⟩ = ipv4Text a b c d port := by
  rw [← addrText_four r]
  rfl

theorem resolve_ipv4 (r : Resolver) (a b c d : UInt8) (port : UInt16) :
    resolve r (ipv4Text a b c d port) = some ⟨mapped a b c d, port.toNat⟩ := by
  obtain ⟨k, s, hk, e⟩ := dotted_cons a b c d
  obtain ⟨-, -, -, h1, -⟩ := digit_spec k hk
  have hl := lastColon_append (dotted [a, b, c, d]) (itoa port.toNat) fun h => (itoa_chars h).1 rfl
  have hs : splitHostPort (ipv4Text a b c d port) = some (dotted [a, b, c, d], itoa port.toNat) := by
    unfold splitHostPort ipv4Text
    rw [hl]
    simp only
    split
    · rename_i inner hi; rw [e] at hi; injection hi with hi; exact absurd hi h1
    · rw [if_neg]
      rintro (h | h | h | h | h)
      · exact (dotted_chars a b c d _ h).1 rfl
      · exact (dotted_chars a b c d _ h).2.1 rfl
      · exact (dotted_chars a b c d _ h).2.2 rfl
      · exact (itoa_chars h).2.1 rfl
      · exact (itoa_chars h).2.2 rfl
  have hp : port.toNat ≤ 65535 := Nat.lt_succ_iff.1 port.toNat_lt
  unfold resolve
  rw [if_neg (by unfold ipv4Text; rw [e]; simp), hs]
  simp only [Option.bind_eq_bind, Option.bind_some]
  rw [lookupPort_itoa r _ hp]
  simp only [Option.bind_some]
  rw [if_neg (by rw [e]; simp), parse_dotted]

theorem itoa_toDigits (n : Nat) : itoa n = Nat.toDigits 10 n := by
  induction n using itoa.induct with
  | case1 n h =>
    rw [itoa, if_pos h, Nat.toDigits_of_lt_base h]
    have : ∀ x : Fin 10, digit x.val = x.val.digitChar := by decide
    exact congrArg (fun c => [c]) (this ⟨n, h⟩)
  | case2 n h ih =>
    have hm : n % 10 < 10 := Nat.mod_lt _ (by decide)
    have : ∀ x : Fin 10, digit x.val = x.val.digitChar := by decide
    rw [itoa, if_neg h, ih, show [digit (n % 10)] = Nat.toDigits 10 (n % 10) by
      rw [Nat.toDigits_of_lt_base hm]; exact congrArg (fun c => [c]) (this ⟨_, hm⟩),
      Nat.toDigits_append_toDigits (by decide) (by omega) hm, Nat.div_add_mod]

/-! ### C106 -/

/-- How an IPv4 address and port are written. -/
def written (a b c d : UInt8) (port : UInt16) : String :=
  s!"{a.toNat}.{b.toNat}.{c.toNat}.{d.toNat}:{port.toNat}"

theorem written_eq (a b c d : UInt8) (port : UInt16) : written a b c d port = String.ofList (ipv4Text a b c d port) := by
  rw [← String.toList_inj, String.toList_ofList]
  have h : ∀ n : Nat, (toString n).toList = itoa n := by
    intro n
    rw [Nat.toString_eq_repr, itoa_toDigits, Nat.repr, String.toList_ofList]
  simp only [written, String.toList_append, h, ipv4Text, dotted]
  simp [toString]

theorem ipv4_form {x : TCPAddr} (h : IPv4 x) : ∃ a b c d port, x = ⟨[a, b, c, d], (UInt16.toNat port : Int)⟩ := by
  obtain ⟨ip, port⟩ := x
  obtain ⟨h1, h2, h3⟩ := h
  match ip, h1 with
  | [a, b, c, d], _ =>
    refine ⟨a, b, c, d, UInt16.ofNat port.toNat, ?_⟩
    simp only at h2 h3
    rw [UInt16.toNat_ofNat_of_lt' (by show port.toNat < 65536; omega), Int.toNat_of_nonneg h2]

theorem world_resolve (r : Resolver) (order : Table → Table) (closing : Nat → Bool) (s : String) :
    (world r order closing).resolve s = resolve r s.toList := rfl

theorem world_addrString (r : Resolver) (order : Table → Table) (closing : Nat → Bool) (a : TCPAddr) :
    (world r order closing).addrString a = String.ofList (addrText r a) := rfl

theorem resolve_written (r : Resolver) (order : Table → Table) (closing : Nat → Bool) (a b c d : UInt8) (port : UInt16) :
    (world r order closing).resolve (written a b c d port) = some ⟨mapped a b c d, port.toNat⟩ := by
  rw [world_resolve, written_eq, String.toList_ofList, resolve_ipv4]

/-- **C106, text.** Package net writes an IPv4 address as four decimal numbers and a port, and reads it back as the
same address: the one it resolves to is sent with the same bytes and written in the same way. -/
theorem C106_text (r : Resolver) (order : Table → Table) (closing : Nat → Bool) (a b c d : UInt8) (port : UInt16) :
    let w := world r order closing
    w.addrString ⟨[a, b, c, d], port.toNat⟩ = written a b c d port ∧
    ∃ y, w.resolve (written a b c d port) = some y ∧ w.addrString y = written a b c d port ∧
      serializeTCPAddr y = serializeTCPAddr ⟨[a, b, c, d], port.toNat⟩ ∧ y.port = port.toNat := by
  intro w
  refine ⟨by rw [world_addrString, addrText_four, written_eq], ⟨mapped a b c d, port.toNat⟩, resolve_written .., ?_, ?_, rfl⟩
  · rw [world_addrString, addrText_mapped, written_eq]
  · rfl

/-- Different addresses are written differently. -/
theorem C106_distinct (a b c d a' b' c' d' : UInt8) (port port' : UInt16)
    (h : written a b c d port = written a' b' c' d' port') :
    a = a' ∧ b = b' ∧ c = c' ∧ d = d' ∧ port = port' := by
  have r : Resolver := ⟨fun _ => none, fun _ => none, fun _ => []⟩
  rw [written_eq, written_eq] at h
  have h1 := resolve_ipv4 r a b c d port
  rw [String.ofList_injective h, resolve_ipv4 r] at h1
  simp only [Option.some.injEq, TCPAddr.mk.injEq, mapped, List.cons.injEq, true_and, and_true] at h1
  obtain ⟨⟨e1, e2, e3, e4⟩, e5⟩ := h1
  exact ⟨e1.symm, e2.symm, e3.symm, e4.symm, (UInt16.toNat_inj.1 (Int.ofNat.inj e5)).symm⟩

theorem admissible_written (r : Resolver) (order : Table → Table) (closing : Nat → Bool) (a b c d : UInt8) (port : UInt16) :
    Admissible (world r order closing).resolve (written a b c d port) ↔ port ≠ 0 ∧ ¬ (224 ≤ a.toNat ∧ a.toNat < 240) := by
  have hr : (world r order closing).resolve (written a b c d port) = some ⟨mapped a b c d, port.toNat⟩ := by
    exact resolve_written ..
  have hp : (port.toNat : Int) ≠ 0 ↔ port ≠ 0 := by
    constructor
    · rintro h rfl; exact h rfl
    · intro h h0
      exact h (UInt16.toNat_inj.1 (Int.ofNat.inj h0))
  unfold Admissible
  constructor
  · rintro ⟨y, hy, h1, h2, -⟩
    rw [hr] at hy; cases hy
    exact ⟨hp.1 h1, fun h => h2 ⟨a, b, c, d, .inr rfl, h⟩⟩
  · rintro ⟨h1, h2⟩
    refine ⟨_, hr, hp.2 h1, ?_, ?_⟩
    · rintro ⟨x, y, z, v, h | h, h3⟩
      · simp [mapped] at h
      · simp only [mapped, List.cons.injEq, true_and, and_true] at h
        obtain ⟨rfl, -⟩ := h
        exact h2 h3
    · rintro ⟨rest, -, h⟩
      simp [mapped] at h

theorem foldl_keeps (w : World) (l : List TCPAddr) (t : Table) (k : String) (hk : k ∈ t.map (·.1)) :
    k ∈ (l.foldl (fun t a => add w.resolve t (w.addrString a)) t).map (·.1) := by
  obtain ⟨new, e, -⟩ := told_prefix w l t
  rw [e, List.map_append]
  exact List.mem_append_left _ hk

theorem foldl_adds (w : World) (l : List TCPAddr) (t : Table) (x : TCPAddr) (hx : x ∈ l)
    (ha : Admissible w.resolve (w.addrString x)) (hroom : t.length + l.length ≤ 10001) :
    w.addrString x ∈ (l.foldl (fun t a => add w.resolve t (w.addrString a)) t).map (·.1) := by
  induction l generalizing t with
  | nil => cases hx
  | cons y l ih =>
    rw [List.foldl_cons]
    rw [List.length_cons] at hroom
    rcases List.mem_cons.1 hx with rfl | hx
    · apply foldl_keeps
      by_cases hk : w.addrString x ∈ t.map (·.1)
      · obtain ⟨l', e, -⟩ := add_prefix w.resolve t (w.addrString x)
        rw [e, List.map_append]
        exact List.mem_append_left _ hk
      · rw [(C55_add w.resolve t (w.addrString x)).1 ⟨ha, by omega, hk⟩]
        simp
    · obtain ⟨l', e, hl⟩ := add_prefix w.resolve t (w.addrString y)
      apply ih _ hx
      rw [e, List.length_append]
      rcases hl with rfl | ⟨rfl, -⟩ <;> simp <;> omega

/-- **C106.** A known peer sends a list of addresses. Every address of the list with a port that is not 0 and no
multicast host is then in the table, written as four decimal numbers and a port, if the table has room for the list;
nothing else has been added; and no entry has been changed. -/
theorem C106_kept {E : Env} (r : Resolver) (order : Table → Table) (closing : Nat → Bool) (node : Node E) (f : Sender)
    (known : Known node f) (body : Bytes) (m : PeerAddrs) (hm : Carries E 6 body (some (.peerAddrs m))) :
    ∃ new, (processMessage (world r order closing) node f (.peerAddrs m)).node.table = node.table ++ new ∧
      (∀ a b c d port, ⟨[a, b, c, d], (UInt16.toNat port : Int)⟩ ∈ m.peers → port ≠ 0 →
        ¬ (224 ≤ a.toNat ∧ a.toNat < 240) → node.table.length + m.peers.length ≤ 10001 →
        written a b c d port ∈ (node.table ++ new).map (·.1)) ∧
      ∀ e ∈ new, e.2 = blankEntry ∧ ∃ a b c d port, ⟨[a, b, c, d], (UInt16.toNat port : Int)⟩ ∈ m.peers ∧
        e.1 = written a b c d port := by
  rw [← fresh_blank]
  have hd : ∀ x ∈ m.peers, IPv4 x := by
    cases hm with
    | peerAddrs _ rest _ h => exact (C22_decoded body rest m h).2
  have ht : (processMessage (world r order closing) node f (.peerAddrs m)).node.table =
      m.peers.foldl (fun t a => add (world r order closing).resolve t ((world r order closing).addrString a)) node.table := by
    rw [process_known _ node f known]; rfl
  obtain ⟨new, e, -, -, hn⟩ := told_prefix (world r order closing) m.peers node.table
  refine ⟨new, by rw [ht, e], ?_, ?_⟩
  · intro a b c d port hx hp hmc hroom
    rw [← e, ← (C106_text r order closing a b c d port).1]
    refine foldl_adds _ _ _ _ hx ?_ hroom
    rw [(C106_text r order closing a b c d port).1, admissible_written]
    exact ⟨hp, hmc⟩
  · intro x hx
    obtain ⟨h1, y, hy, h2⟩ := hn x hx
    obtain ⟨a, b, c, d, port, rfl⟩ := ipv4_form (hd y hy)
    exact ⟨h1, a, b, c, d, port, hy, by rw [← h2, (C106_text r order closing a b c d port).1]⟩

/-! ### C107 -/

/-- All addresses of the table are IPv4 addresses with a port, as they are written. -/
def Literal (t : Table) : Prop := ∀ k ∈ t.map (·.1), ∃ a b c d port, k = written a b c d port

/-- A history of messages from the wire, with Go's package net. -/
def FromWire {E : Env} (h : History E) : Prop :=
  ∀ e ∈ h, (∃ r order closing, e.1 = world r order closing) ∧ ∃ t body, Carries E t body (some e.2.2)

/-- The node that `main` starts, with Go's package net. -/
def shipped (E : Env) (r : Resolver) : Node E := mainNode E fun s => resolve r s.toList

theorem shipped_table (E : Env) (r : Resolver) :
    (shipped E r).table = [(written 127 0 0 1 13414, PeerInfo.fresh)] := by
  have h := admissible_written r id (fun _ => false) 127 0 0 1 13414
  have e : written 127 0 0 1 13414 = "127.0.0.1:13414" := by decide
  have ha : Admissible (fun s : String => resolve r s.toList) (written 127 0 0 1 13414) := h.2 ⟨by decide, by decide⟩
  have := (C55_add (fun s : String => resolve r s.toList) [] (written 127 0 0 1 13414)).1 ⟨ha, by simp, by simp⟩
  rw [e] at this ⊢
  exact this

/-- **C107, the addresses.** Whatever messages come from the wire, all addresses in the table of the shipped node are
IPv4 addresses, as they are written. -/
theorem C107_literal {E : Env} (r : Resolver) (h : History E) (hw : FromWire h) :
    Literal (afterMessages (shipped E r) h).table := by
  have hu : UniqueKeys (shipped E r).table := by rw [shipped_table]; simp [UniqueKeys]
  obtain ⟨-, -, -, -, -, -, -, h8⟩ := C96_history (shipped E r) hu (by rw [shipped_table]; simp) h
  intro k hk
  rcases h8 k hk with hk | ⟨e, he, p, x, hp, hx, hk⟩
  · rw [shipped_table] at hk
    exact ⟨127, 0, 0, 1, 13414, by simpa using hk⟩
  · obtain ⟨⟨r', order, closing, hr⟩, t, body, hc⟩ := hw e he
    rw [hp] at hc
    have hi : IPv4 x := by
      cases hc with
      | peerAddrs _ rest _ h => exact (C22_decoded body rest p h).2 x hx
    obtain ⟨a, b, c, d, port, rfl⟩ := ipv4_form hi
    rw [hr, (C106_text r' order closing a b c d port).1] at hk
    exact ⟨a, b, c, d, port, hk.symm⟩

/-- **C107, requests.** So the shipped node can always answer a request for addresses: the answer can be serialised
(compare `C54_refuted`). -/
theorem C107_answers {E : Env} (r : Resolver) (h : History E) (hw : FromWire h) (r' : Resolver) (order : Table)
    (ho : OrderOf order (afterMessages (shipped E r) h).table) (caps : UInt32) :
    ∃ bs, (peers (fun s => resolve r' s.toList) order caps).bytes = .ok bs := by
  have hl := C107_literal r h hw
  refine C54_serialisable_partial (fun s => resolve r' s.toList) _ order ho caps ?_
  intro e he a ha
  obtain ⟨x, y, z, v, port, hk⟩ := hl e.1 (List.mem_map.2 ⟨e, he, rfl⟩)
  simp only [hk, written_eq, String.toList_ofList, resolve_ipv4] at ha
  cases ha
  exact .inr rfl

theorem peerName_mapped (a b c d : UInt8) (port : UInt16) (h : ¬ (a = 0 ∧ b = 0 ∧ c = 0 ∧ d = 0)) :
    peerName ⟨mapped a b c d, port.toNat⟩ = ⟨mapped a b c d, port.toNat⟩ := by
  have h4 : to4 (mapped a b c d) = some [a, b, c, d] := rfl
  unfold peerName
  rw [if_neg, if_neg]
  · simp [mapped, List.replicate]
  · rintro (h1 | h1)
    · simp [mapped] at h1
    · simp only [h4, Option.some.injEq, List.cons.injEq, and_true] at h1
      exact h h1

/-- **C107, bans.** The remote address of a connection that was dialled to an address of such a table is written like
that address, unless it is the unspecified address 0.0.0.0. -/
theorem C107_remote_partial (r : Resolver) (t : Table) (ht : Literal t) (f : Sender) (hf : f.addr ∈ t.map (·.1))
    (hd : Dialled r f) (hne : ∀ port, f.addr ≠ written 0 0 0 0 port) : f.remote = f.addr := by
  obtain ⟨a, b, c, d, port, hk⟩ := ht f.addr hf
  obtain ⟨y, hy, hr⟩ := hd
  rw [hk, written_eq, String.toList_ofList, resolve_ipv4] at hy
  cases hy
  have h : ¬ (a = 0 ∧ b = 0 ∧ c = 0 ∧ d = 0) := by
    rintro ⟨rfl, rfl, rfl, rfl⟩
    exact hne port hk
  rw [hr, peerName_mapped a b c d port h, addrText_mapped, hk, written_eq]

/-- So what the shipped node relays, from such a connection, is a block it has accepted (compare `C61_refuted`). -/
theorem C107_relays_partial {E : Env} (r : Resolver) (w : World) (node : Node E) (ht : Literal node.table) (f : Sender)
    (known : Known node f) (hd : Dialled r f) (hne : ∀ port, f.addr ≠ written 0 0 0 0 port) (b : Block E)
    (addr : String) (c : Nat) (b' : Block E) (h : .relay addr c b' ∈ (processMessage w node f (.block b)).effects) :
    b' = b ∧ (node.chain.processBlock node.storage b).1 = .ok () ∧ b.header.height = node.chain.height :=
  C61_known_remote_partial w node f b known (by rw [C107_remote_partial r _ ht f known hd hne]; exact known) addr c b' h

/-- **C107 is false of the code.** A peer tells the address 0.0.0.0 with any port but 0 and that of the configured peer.
The address enters the table, and a connection that is dialled to it has the remote address 127.0.0.1, which is not in
the table: a ban finds nothing, and rejected blocks are relayed (`C61_refuted`). -/
theorem C107_refuted {E : Env} (r : Resolver) (order : Table → Table) (closing : Nat → Bool) (teller : Sender)
    (hteller : teller.addr = "127.0.0.1:13414") (port : UInt16) (h0 : port ≠ 0) (h1 : port ≠ 13414) :
    ∃ m, let h : History E := [(world r order closing, teller, m)]
      FromWire h ∧ written 0 0 0 0 port ∈ (afterMessages (shipped E r) h).table.map (·.1) ∧
      ∀ f, f.addr = written 0 0 0 0 port → Dialled r f →
        f.remote = written 127 0 0 1 port ∧ f.remote ∉ (afterMessages (shipped E r) h).table.map (·.1) := by
  have hi : IPv4 ⟨[0, 0, 0, 0], port.toNat⟩ := ⟨rfl, Int.natCast_nonneg _, Int.ofNat_lt.2 port.toNat_lt⟩
  obtain ⟨v, -, -, hv⟩ := C22_list_partial ⟨[⟨[0, 0, 0, 0], port.toNat⟩]⟩ (by simp) (by simpa using hi)
  have hc : Carries E 6 v (some (.peerAddrs ⟨[⟨[0, 0, 0, 0], port.toNat⟩]⟩)) := by
    have := hv []
    rw [List.append_nil] at this
    exact .peerAddrs v [] _ this
  have known : Known (shipped E r) teller := by
    unfold Known
    rw [shipped_table, hteller]
    have : written 127 0 0 1 13414 = "127.0.0.1:13414" := by decide
    simp [this]
  obtain ⟨new, e, k1, k2⟩ := C106_kept r order closing (shipped E r) teller known v _ hc
  refine ⟨.peerAddrs ⟨[⟨[0, 0, 0, 0], port.toNat⟩]⟩, ?_, ?_, ?_⟩
  · intro x hx
    rw [List.mem_singleton] at hx
    subst hx
    exact ⟨⟨r, order, closing, rfl⟩, 6, v, hc⟩
  · show _ ∈ ((processMessage _ (shipped E r) teller _).node.table).map _
    rw [e]
    exact k1 0 0 0 0 port (by simp) h0 (by decide) (by rw [shipped_table]; simp)
  · intro f hf ⟨y, hy, hr⟩
    rw [hf, written_eq, String.toList_ofList, resolve_ipv4] at hy
    cases hy
    have hrem : f.remote = written 127 0 0 1 port := by
      have : peerName ⟨mapped 0 0 0 0, port.toNat⟩ = ⟨[127, 0, 0, 1], port.toNat⟩ := rfl
      rw [hr, this, addrText_four, written_eq]
    refine ⟨hrem, ?_⟩
    show _ ∉ ((processMessage _ (shipped E r) teller _).node.table).map _
    rw [e, hrem, shipped_table, List.map_append, List.mem_append]
    rintro (h | h)
    · simp only [List.map_cons, List.map_nil, List.mem_singleton] at h
      exact h1 (C106_distinct _ _ _ _ _ _ _ _ _ _ h).2.2.2.2
    · obtain ⟨x, hx, hk⟩ := List.mem_map.1 h
      obtain ⟨-, a, b, c, d, p, hp, hk'⟩ := k2 x hx
      rw [hk] at hk'
      simp only [List.mem_singleton, TCPAddr.mk.injEq, List.cons.injEq, and_true] at hp
      have := C106_distinct _ _ _ _ _ _ _ _ _ _ hk'
      rw [hp.1.1] at this
      exact absurd this.1 (by decide)

/-! ### Addresses that are not IPv4 -/

theorem dtoiGo_rest : ∀ (s : List Char) (n m : Nat) (t : List Char), dtoiGo n s = some (m, t) → ':' ∈ s → ':' ∈ t
  | [], _, _, _, _, h => by cases h
  | c :: s, n, m, t, h, hc => by
    unfold dtoiGo at h
    split at h
    · rename_i hd
      split at h
      · cases h
      · refine dtoiGo_rest s _ m t h ?_
        rcases List.mem_cons.1 hc with rfl | hc
        · cases hd
        · exact hc
    · cases h; exact hc

theorem octet_rest {s t : List Char} {a : UInt8} (h : octet s = some (a, t)) (hc : ':' ∈ s) : ':' ∈ t := by
  unfold octet at h
  cases hd : dtoi s with
  | none => rw [hd] at h; cases h
  | some p =>
    obtain ⟨n, u⟩ := p
    rw [hd] at h
    dsimp only at h
    split at h
    · cases h
    · cases h
      unfold dtoi at hd
      split at hd
      · cases hd
      · split at hd
        · exact dtoiGo_rest _ _ _ _ hd hc
        · cases hd

theorem dot_rest {s t : List Char} (h : dot s = some t) (hc : ':' ∈ s) : ':' ∈ t := by
  unfold dot at h
  split at h
  · cases h
    rcases List.mem_cons.1 hc with hc | hc
    · exact absurd hc (by decide)
    · exact hc
  · cases h

/-- A text with a colon is no IPv4 literal. -/
theorem parse_colon {s : List Char} (h : ':' ∈ s) : parseIPv4 s = none := by
  cases hp : parseIPv4 s with
  | none => rfl
  | some ip =>
    unfold parseIPv4 at hp
    simp only [Option.bind_eq_bind, Option.bind_eq_some_iff] at hp
    obtain ⟨⟨a, s1⟩, h1, s2, h2, ⟨b, s3⟩, h3, s4, h4, ⟨c, s5⟩, h5, s6, h6, ⟨d, s7⟩, h7, h8⟩ := hp
    have := octet_rest h7 (dot_rest h6 (octet_rest h5 (dot_rest h4 (octet_rest h3 (dot_rest h2 (octet_rest h1 h))))))
    split at h8
    · rename_i e
      dsimp only at e
      rw [e] at this
      cases this
    · cases h8

/-- How an address that is not IPv4 is written: its text in brackets and the port. -/
def bracketed (text : List Char) (port : UInt16) : String := "[" ++ String.ofList text ++ "]:" ++ toString port.toNat

theorem toString_itoa (n : Nat) : (toString n).toList = itoa n := by
  rw [Nat.toString_eq_repr, itoa_toDigits, Nat.repr, String.toList_ofList]

theorem bracketed_eq (text : List Char) (port : UInt16) :
    bracketed text port = String.ofList ('[' :: text ++ ']' :: ':' :: itoa port.toNat) := by
  rw [← String.toList_inj, String.toList_ofList]
  simp only [bracketed, String.toList_append, toString_itoa, String.toList_ofList]
  simp

theorem itoaInt_port (port : UInt16) : itoaInt (port.toNat : Int) = itoa port.toNat := by
  have h0 : ¬ ((port.toNat : Int) < 0) := by omega
  simp only [itoaInt, if_neg h0]
  rfl

/-- **C106, text of other addresses.** An IPv6 address of which package net writes the text with colons and without
brackets, and reads this text back as the address, is written as that text in brackets and the port, and read back as the
same address. -/
theorem C106_six (r : Resolver) (order : Table → Table) (closing : Nat → Bool) (ip : Bytes) (port : UInt16)
    (hl : ip.length = 16) (h4 : ip.take 12 ≠ [0, 0, 0, 0, 0, 0, 0, 0, 0, 0, 255, 255]) (hc : ':' ∈ r.text ip)
    (hb : '[' ∉ r.text ip ∧ ']' ∉ r.text ip) (hr : r.host (r.text ip) = some ip) :
    let w := world r order closing
    w.addrString ⟨ip, port.toNat⟩ = bracketed (r.text ip) port ∧
    w.resolve (bracketed (r.text ip) port) = some ⟨ip, port.toNat⟩ := by
  intro w
  have hn : ip ≠ [] := by rintro rfl; cases hl
  have ht : to4 ip = none := by
    unfold to4
    rw [if_neg (by omega), if_neg]
    rintro ⟨-, h1, h2⟩
    refine h4 ?_
    rw [show (12 : Nat) = 10 + 2 from rfl, List.take_add, h1, h2]
    rfl
  constructor
  · rw [world_addrString, bracketed_eq]
    simp only [addrText, ipText, ht, if_neg hn, joinHostPort, if_pos hc, itoaInt_port]
  · rw [world_resolve, bracketed_eq, String.toList_ofList]
    have hlast : lastColon ('[' :: r.text ip ++ ']' :: ':' :: itoa port.toNat) =
        some ('[' :: (r.text ip ++ [']']), itoa port.toNat) := by
      have := lastColon_append ('[' :: (r.text ip ++ [']'])) (itoa port.toNat) fun h => (itoa_chars h).1 rfl
      simpa using this
    have hs : splitHostPort ('[' :: r.text ip ++ ']' :: ':' :: itoa port.toNat) = some (r.text ip, itoa port.toNat) := by
      unfold splitHostPort
      rw [hlast]
      refine (if_pos ?_).trans (by rw [List.dropLast_concat])
      refine ⟨by simp, by rw [List.dropLast_concat]; exact hb.2, ?_, fun h => (itoa_chars h).2.1 rfl, fun h => (itoa_chars h).2.2 rfl⟩
      rw [List.mem_append, not_or]
      exact ⟨hb.1, by decide⟩
    have hp : port.toNat ≤ 65535 := Nat.lt_succ_iff.1 port.toNat_lt
    unfold resolve
    rw [if_neg (by simp), hs]
    simp only [Option.bind_eq_bind, Option.bind_some]
    rw [lookupPort_itoa r _ hp]
    simp only [Option.bind_some]
    rw [if_neg (by intro h; rw [h] at hc; cases hc), parse_colon hc]
    simp only [hr, Option.map_some]

/-- An address without an IP is written as a colon and the port, and read back. -/
theorem C106_no_host (r : Resolver) (order : Table → Table) (closing : Nat → Bool) (port : UInt16) :
    let w := world r order closing
    w.addrString ⟨[], port.toNat⟩ = ":" ++ toString port.toNat ∧
    w.resolve (":" ++ toString port.toNat) = some ⟨[], port.toNat⟩ := by
  intro w
  have e : ":" ++ toString port.toNat = String.ofList (':' :: itoa port.toNat) := by
    rw [← String.toList_inj, String.toList_ofList, String.toList_append, toString_itoa]
    rfl
  rw [e]
  constructor
  · rw [world_addrString]
    simp only [addrText, ipText, itoaInt_port, joinHostPort]
    rfl
  · rw [world_resolve, String.toList_ofList]
    have hs : splitHostPort (':' :: itoa port.toNat) = some ([], itoa port.toNat) := by
      unfold splitHostPort
      rw [show lastColon (':' :: itoa port.toNat) = some ([], itoa port.toNat) from
        lastColon_append [] (itoa port.toNat) fun h => (itoa_chars h).1 rfl]
      dsimp only
      rw [if_neg]
      rintro (h | h | h | h | h)
      · cases h
      · cases h
      · cases h
      · exact (itoa_chars h).2.1 rfl
      · exact (itoa_chars h).2.2 rfl
    have hp : port.toNat ≤ 65535 := Nat.lt_succ_iff.1 port.toNat_lt
    unfold resolve
    rw [if_neg (by simp), hs]
    simp only [Option.bind_eq_bind, Option.bind_some]
    rw [lookupPort_itoa r _ hp]
    rfl

/-- **C107, bans, IPv6.** A connection that was dialled to such an IPv6 address has this remote address, unless it is the
unspecified one. -/
theorem C107_six_partial (r : Resolver) (ip : Bytes) (port : UInt16) (hl : ip.length = 16)
    (h4 : ip.take 12 ≠ [0, 0, 0, 0, 0, 0, 0, 0, 0, 0, 255, 255]) (hc : ':' ∈ r.text ip)
    (hb : '[' ∉ r.text ip ∧ ']' ∉ r.text ip) (hr : r.host (r.text ip) = some ip) (h0 : ip ≠ List.replicate 16 0)
    (f : Sender) (hf : f.addr = bracketed (r.text ip) port) (hd : Dialled r f) : f.remote = f.addr := by
  obtain ⟨h1, h2⟩ := C106_six r id (fun _ => false) ip port hl h4 hc hb hr
  obtain ⟨a, ha, he⟩ := hd
  rw [world_resolve] at h2
  rw [hf, h2] at ha
  cases ha
  have hp : peerName ⟨ip, port.toNat⟩ = ⟨ip, port.toNat⟩ := by
    unfold peerName
    rw [if_neg, if_neg h0]
    rintro (h | h)
    · dsimp only at h; subst h; cases hl
    · dsimp only at h
      unfold to4 at h
      rw [if_neg (by omega)] at h
      split at h
      · rename_i hh
        refine h4 ?_
        rw [show (12 : Nat) = 10 + 2 from rfl, List.take_add, hh.2.1, hh.2.2]
        rfl
      · cases h
  rw [he, hp, hf, ← h1, world_addrString]

/-- A resolver that knows 2001:db8::1 meets the hypotheses of `C106_six` and `C107_six_partial`. -/
example : ∃ (r : Resolver) (ip : Bytes), ip.length = 16 ∧ ip.take 12 ≠ [0, 0, 0, 0, 0, 0, 0, 0, 0, 0, 255, 255] ∧
    ':' ∈ r.text ip ∧ ('[' ∉ r.text ip ∧ ']' ∉ r.text ip) ∧ r.host (r.text ip) = some ip ∧ ip ≠ List.replicate 16 0 ∧
    bracketed (r.text ip) 3414 = "[2001:db8::1]:3414" ∧
    Dialled r { addr := "[2001:db8::1]:3414", remote := "[2001:db8::1]:3414", conn := 0 } := by
  let ip : Bytes := [0x20, 0x01, 0x0d, 0xb8, 0, 0, 0, 0, 0, 0, 0, 0, 0, 0, 0, 1]
  let r : Resolver := ⟨fun s => if s = "2001:db8::1".toList then some ip else none, fun _ => none, fun _ => "2001:db8::1".toList⟩
  have hb : bracketed (r.text ip) 3414 = "[2001:db8::1]:3414" := by decide
  have h := C106_six r id (fun _ => false) ip 3414 rfl (by decide) (by decide) (by decide) (by decide)
  refine ⟨r, ip, rfl, by decide, by decide, by decide, by decide, by decide, hb, ⟨ip, 3414⟩, ?_, ?_⟩
  · have := h.2
    rw [hb, world_resolve] at this
    exact this
  · have := h.1
    rw [hb, world_addrString] at this
    exact this.symm

/-! ### Concrete cases -/

/-- A resolver that knows no names. -/
def noNames : Resolver := ⟨fun _ => none, fun _ => none, fun _ => []⟩

example : written 127 0 0 1 13414 = "127.0.0.1:13414" := by decide

/-- Texts that other spellings resolve to: the text is not the only one for its address. -/
example : resolve noNames "10.0.0.007:+13414".toList = some ⟨mapped 10 0 0 7, 13414⟩ ∧
    resolve noNames ":13414".toList = some ⟨[], 13414⟩ ∧ resolve noNames "10.0.0.256:1".toList = none ∧
    resolve noNames "10.0.0.1".toList = none ∧ resolve noNames "10.0.0.1:65536".toList = none := by decide

/-- `C106_kept`, `C107_literal`: the configured peer tells two addresses, one of them with port 0. -/
example (E : Env) (teller : Sender) (hteller : teller.addr = "127.0.0.1:13414") :
    ∃ m : Message E, FromWire [(world noNames id (fun _ => false), teller, m)] ∧
      (afterMessages (shipped E noNames) [(world noNames id (fun _ => false), teller, m)]).table.map (·.1) =
        ["127.0.0.1:13414", "10.0.0.7:3414"] := by
  have hi : ∀ a ∈ [(⟨[10, 0, 0, 7], 3414⟩ : TCPAddr), ⟨[10, 0, 0, 8], 0⟩], IPv4 a := by
    intro a ha
    simp only [List.mem_cons, List.not_mem_nil, or_false] at ha
    rcases ha with rfl | rfl <;> exact ⟨rfl, by decide, by decide⟩
  obtain ⟨v, -, -, hv⟩ := C22_list_partial ⟨[⟨[10, 0, 0, 7], 3414⟩, ⟨[10, 0, 0, 8], 0⟩]⟩ (by simp) hi
  refine ⟨.peerAddrs ⟨[⟨[10, 0, 0, 7], 3414⟩, ⟨[10, 0, 0, 8], 0⟩]⟩, ?_, ?_⟩
  · intro x hx
    rw [List.mem_singleton] at hx
    subst hx
    have := hv []
    rw [List.append_nil] at this
    exact ⟨⟨_, _, _, rfl⟩, 6, v, .peerAddrs v [] _ this⟩
  · have hk : (shipped E noNames).table = [("127.0.0.1:13414", PeerInfo.fresh)] := by
      rw [shipped_table]; decide
    have known : Known (shipped E noNames) teller := by unfold Known; rw [hk, hteller]; simp
    show ((processMessage _ (shipped E noNames) teller _).node.table).map _ = _
    rw [process_known _ _ _ known]
    show ((_ : List TCPAddr).foldl _ (shipped E noNames).table).map _ = _
    rw [hk]
    dsimp only
    decide +kernel

end Gringo.Props
