import Verif.Props.Addresses
/-
C106: which texts are addresses at all.
-/
namespace Gringo.Props
open Gringo Gringo.Net Gringo.P2P

/-- These are decimal digits, and `v` is their value. -/
def Digits (s : List Char) (v : Nat) : Prop :=
  (∀ c ∈ s, c.isDigit = true) ∧ s.foldl (fun n c => 10 * n + (c.toNat - 48)) 0 = v

/-- The text of a port: digits, perhaps after a sign. -/
def PortText (s : List Char) (port : Int) : Prop :=
  ∃ sign digits v, s = sign ++ digits ∧ (sign = [] ∨ sign = ['+'] ∨ sign = ['-'] ∧ v = 0) ∧ Digits digits v ∧
    v ≤ 65535 ∧ port = v

/-- The text of a host: nothing, or four numbers up to 255 with dots between them. -/
def HostText (s : List Char) (ip : Bytes) : Prop :=
  s = [] ∧ ip = [] ∨
  ∃ a b c d : List Char, ∃ w x y z : Nat, s = a ++ '.' :: (b ++ '.' :: (c ++ '.' :: d)) ∧
    (a ≠ [] ∧ b ≠ [] ∧ c ≠ [] ∧ d ≠ []) ∧ (Digits a w ∧ Digits b x ∧ Digits c y ∧ Digits d z) ∧
    (w ≤ 255 ∧ x ≤ 255 ∧ y ≤ 255 ∧ z ≤ 255) ∧
    ip = [0, 0, 0, 0, 0, 0, 0, 0, 0, 0, 255, 255, UInt8.ofNat w, UInt8.ofNat x, UInt8.ofNat y, UInt8.ofNat z]

theorem isDigit_core {c : Char} (h : isDigit c = true) : c.isDigit = true := by
  simp only [isDigit, Bool.and_eq_true, decide_eq_true_eq] at h
  simp only [Char.isDigit, Bool.and_eq_true, decide_eq_true_eq]
  exact ⟨UInt32.le_iff_toNat_le.2 h.1, UInt32.le_iff_toNat_le.2 h.2⟩

theorem dtoiGo_ok : ∀ {s : List Char} {n m : Nat} {rest : List Char}, dtoiGo n s = some (m, rest) →
    ∃ a, s = a ++ rest ∧ (∀ c ∈ a, c.isDigit = true) ∧ a.foldl (fun n c => 10 * n + (c.toNat - 48)) n = m
  | [], n, m, rest, h => by
    simp only [dtoiGo, Option.some.injEq, Prod.mk.injEq] at h
    exact ⟨[], by simp [h.2], by simp, by simp [h.1]⟩
  | c :: s, n, m, rest, h => by
    unfold dtoiGo at h
    split at h
    · rename_i hc
      split at h
      · cases h
      · obtain ⟨a, h1, h2, h3⟩ := dtoiGo_ok h
        refine ⟨c :: a, by simp [h1], ?_, ?_⟩
        · intro x hx
          rcases List.mem_cons.1 hx with rfl | hx
          · exact isDigit_core hc
          · exact h2 x hx
        · rw [List.foldl_cons, Nat.mul_comm 10 n]; exact h3
    · simp only [Option.some.injEq, Prod.mk.injEq] at h
      exact ⟨[], by simp [← h.2], by simp, by simp [h.1]⟩

theorem octet_ok {s rest : List Char} {x : UInt8} (h : octet s = some (x, rest)) :
    ∃ a v, s = a ++ rest ∧ a ≠ [] ∧ Digits a v ∧ v ≤ 255 ∧ x = UInt8.ofNat v := by
  unfold octet at h
  cases hd : dtoi s with
  | none => rw [hd] at h; cases h
  | some r =>
    obtain ⟨n, t⟩ := r
    rw [hd] at h
    simp only at h
    split at h
    · cases h
    · rename_i hn
      simp only [Option.some.injEq, Prod.mk.injEq] at h
      obtain ⟨rfl, rfl⟩ := h
      unfold dtoi at hd
      split at hd
      · cases hd
      · rename_i c s'
        split at hd
        · rename_i hc
          obtain ⟨a, h1, h2, h3⟩ := dtoiGo_ok hd
          refine ⟨a, n, h1, ?_, ⟨h2, h3⟩, by omega, rfl⟩
          rintro rfl
          -- the first character is a digit, so it was consumed
          rw [List.nil_append] at h1
          subst h1
          unfold dtoiGo at hd
          rw [if_pos hc] at hd
          split at hd
          · cases hd
          · obtain ⟨a', h1', -, -⟩ := dtoiGo_ok hd
            have := congrArg List.length h1'
            simp only [List.length_append, List.length_cons] at this
            omega
        · cases hd

theorem dot_ok {s t : List Char} (h : dot s = some t) : s = '.' :: t := by
  unfold dot at h
  split at h
  · cases h; rfl
  · cases h

theorem parseIPv4_ok {s : List Char} {ip : Bytes} (h : parseIPv4 s = some ip) : HostText s ip := by
  unfold parseIPv4 at h
  simp only [Option.bind_eq_bind, Option.bind_eq_some_iff] at h
  obtain ⟨⟨a, s1⟩, h1, s2, h2, ⟨b, s3⟩, h3, s4, h4, ⟨c, s5⟩, h5, s6, h6, ⟨d, s7⟩, h7, h⟩ := h
  simp only at h2 h4 h6 h
  split at h
  · rename_i he
    subst he
    cases h
    obtain ⟨ta, w, e1, n1, d1, l1, rfl⟩ := octet_ok h1
    obtain ⟨tb, x, e2, n2, d2, l2, rfl⟩ := octet_ok h3
    obtain ⟨tc, y, e3, n3, d3, l3, rfl⟩ := octet_ok h5
    obtain ⟨td, z, e4, n4, d4, l4, rfl⟩ := octet_ok h7
    have f1 := dot_ok h2
    have f2 := dot_ok h4
    have f3 := dot_ok h6
    refine .inr ⟨ta, tb, tc, td, w, x, y, z, ?_, ⟨n1, n2, n3, n4⟩, ⟨d1, d2, d3, d4⟩, ⟨l1, l2, l3, l4⟩, rfl⟩
    rw [e1, f1, e2, f2, e3, f3, e4, List.append_nil]
  · cases h

theorem decimal_ok : ∀ {s : List Char} {n m : Nat}, decimal n s = some m →
    (∀ c ∈ s, c.isDigit = true) ∧ s.foldl (fun n c => 10 * n + (c.toNat - 48)) n = m
  | [], n, m, h => by
    simp only [decimal, Option.some.injEq] at h
    exact ⟨by simp, h⟩
  | c :: s, n, m, h => by
    unfold decimal at h
    split at h
    · rename_i hc
      obtain ⟨h1, h2⟩ := decimal_ok h
      refine ⟨?_, ?_⟩
      · intro x hx
        rcases List.mem_cons.1 hx with rfl | hx
        · exact isDigit_core hc
        · exact h1 x hx
      · rw [List.foldl_cons, Nat.mul_comm 10 n]; exact h2
    · cases h

theorem lookupPort_ok {r : Resolver} {s : List Char} {p : Nat} (h : lookupPort r s = some p) :
    PortText s p ∨ r.port s = some p := by
  unfold lookupPort at h
  cases hp : parsePort s with
  | none => rw [hp] at h; exact .inr h
  | some n =>
    rw [hp] at h
    simp only at h
    split at h
    · rename_i hn
      cases h
      left
      unfold parsePort at hp
      split at hp
      · exact ⟨['+'], _, p, rfl, .inr (.inl rfl), decimal_ok hp, hn, rfl⟩
      · rename_i t
        cases hd : decimal 0 t with
        | none => rw [hd] at hp; cases hp
        | some v =>
          rw [hd] at hp
          simp only [Option.map_some, Option.some.injEq] at hp
          split at hp
          · rename_i hv
            subst hv hp
            exact ⟨['-'], t, 0, rfl, .inr (.inr ⟨rfl, rfl⟩), decimal_ok hd, by omega, rfl⟩
          · omega
      · exact ⟨[], s, p, rfl, .inl rfl, decimal_ok hp, hn, rfl⟩
    · cases h

theorem lastColon_ok : ∀ {s h p : List Char}, lastColon s = some (h, p) → s = h ++ ':' :: p ∧ ':' ∉ p
  | [], _, _, e => by cases e
  | c :: s, h, p, e => by
    unfold lastColon at e
    cases hs : lastColon s with
    | some q =>
      obtain ⟨h', p'⟩ := q
      rw [hs] at e
      simp only [Option.some.injEq, Prod.mk.injEq] at e
      obtain ⟨rfl, rfl⟩ := e
      obtain ⟨h1, h2⟩ := lastColon_ok hs
      exact ⟨by rw [h1]; rfl, h2⟩
    | none =>
      rw [hs] at e
      simp only at e
      split at e
      · rename_i hc
        simp only [Option.some.injEq, Prod.mk.injEq] at e
        obtain ⟨rfl, rfl⟩ := e
        subst hc
        refine ⟨rfl, fun hm => ?_⟩
        obtain ⟨u, v, huv⟩ := List.append_of_mem hm
        have : ∀ (u v : List Char), lastColon (u ++ ':' :: v) ≠ none := by
          intro u v
          induction u with
          | nil =>
            rw [List.nil_append, lastColon]
            cases lastColon v <;> simp
          | cons x u ih =>
            rw [List.cons_append, lastColon]
            cases hq : lastColon (u ++ ':' :: v) with
            | none => exact absurd hq ih
            | some q => simp
        exact this u v (huv ▸ hs)
      · cases e

theorem splitHostPort_ok {s host port : List Char} (h : splitHostPort s = some (host, port)) :
    ':' ∉ port ∧ (s = host ++ ':' :: port ∧ ':' ∉ host ∨ s = '[' :: (host ++ ']' :: ':' :: port)) := by
  unfold splitHostPort at h
  cases hl : lastColon s with
  | none => rw [hl] at h; cases h
  | some q =>
    obtain ⟨hh, p⟩ := q
    rw [hl] at h
    obtain ⟨h1, h2⟩ := lastColon_ok hl
    simp only at h
    split at h
    · rename_i inner
      split at h
      · rename_i hc
        simp only [Option.some.injEq, Prod.mk.injEq] at h
        obtain ⟨rfl, rfl⟩ := h
        refine ⟨h2, .inr ?_⟩
        have hd : inner = inner.dropLast ++ [']'] := (List.dropLast_append_getLast? _ hc.1).symm
        rw [h1]
        conv_lhs => rw [hd]
        simp
      · cases h
    · split at h
      · cases h
      · rename_i hc
        simp only [Option.some.injEq, Prod.mk.injEq] at h
        obtain ⟨rfl, rfl⟩ := h
        exact ⟨h2, .inl ⟨h1, fun hm => hc (.inl hm)⟩⟩

/-- **C106, what is not an address.** A text that is taken for an address is empty, or has a host and a port with a
colon between them, the host perhaps in brackets; the host is empty, or four numbers up to 255, or the operating system
knows it by name, and the port is a number up to 65535, or known by name. The address is the one these numbers say. -/
theorem C106_only (r : Resolver) (order : Table → Table) (closing : Nat → Bool) (text : String) (x : TCPAddr)
    (h : (world r order closing).resolve text = some x) :
    text = "" ∧ x = { ip := [], port := 0 } ∨
    ∃ host port, ':' ∉ port ∧
      (text.toList = host ++ ':' :: port ∧ ':' ∉ host ∨ text.toList = '[' :: (host ++ ']' :: ':' :: port)) ∧
      (HostText host x.ip ∨ r.host host = some x.ip) ∧
      (PortText port x.port ∨ ∃ p : Nat, r.port port = some p ∧ x.port = p) := by
  rw [world_resolve] at h
  unfold resolve at h
  split at h
  · rename_i he
    cases h
    refine .inl ⟨?_, rfl⟩
    rw [← String.ofList_toList (s := text), he]
  · right
    simp only [Option.bind_eq_bind, Option.bind_eq_some_iff] at h
    obtain ⟨⟨host, port⟩, h1, p, h2, h⟩ := h
    obtain ⟨g1, g2⟩ := splitHostPort_ok h1
    have hp := lookupPort_ok h2
    simp only at h hp
    split at h
    · rename_i he
      cases h
      exact ⟨host, port, g1, g2, .inl (.inl ⟨he, rfl⟩), hp.imp id fun q => ⟨p, q, rfl⟩⟩
    · cases hq : parseIPv4 host with
      | some ip =>
        rw [hq] at h
        cases h
        exact ⟨host, port, g1, g2, .inl (parseIPv4_ok hq), hp.imp id fun q => ⟨p, q, rfl⟩⟩
      | none =>
        rw [hq] at h
        simp only [Option.map_eq_some_iff] at h
        obtain ⟨ip, e, rfl⟩ := h
        exact ⟨host, port, g1, g2, .inr e, hp.imp id fun q => ⟨p, q, rfl⟩⟩

/-- The theorem applies to the address of the node's configured peer, and to one in brackets with a sign. -/
example (r : Resolver) : resolve r "127.0.0.1:13414".toList =
    some { ip := [0, 0, 0, 0, 0, 0, 0, 0, 0, 0, 255, 255, 127, 0, 0, 1], port := 13414 } := by rfl
example (r : Resolver) : resolve r "[10.0.0.255]:+80".toList =
    some { ip := [0, 0, 0, 0, 0, 0, 0, 0, 0, 0, 255, 255, 10, 0, 0, 255], port := 80 } := by rfl

/-- A text without a colon is no address, whatever the operating system knows. -/
theorem C106_colon (r : Resolver) (order : Table → Table) (closing : Nat → Bool) (text : String) (hne : text ≠ "")
    (h : ':' ∉ text.toList) : (world r order closing).resolve text = none := by
  cases hr : (world r order closing).resolve text with
  | none => rfl
  | some x =>
    rcases C106_only r order closing text x hr with ⟨he, -⟩ | ⟨host, port, -, hs, -⟩
    · exact absurd he hne
    · rcases hs with ⟨hs, -⟩ | hs <;> exact absurd (by rw [hs]; simp) h

example : "localhost" ≠ "" ∧ ':' ∉ "localhost".toList := by decide

end Gringo.Props
