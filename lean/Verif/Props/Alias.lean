import Verif.Props.Addresses
/-
C141: which texts are addresses, and which of them are the same address.
-/
namespace Gringo.Props
open Gringo.Spec Gringo.P2P Gringo.Net

/-! ### What is read as an IPv4 address -/

/-- The number that a text of decimal digits stands for. -/
def value (x : List Char) : Nat := x.foldl (fun n c => n * 10 + (c.toNat - 48)) 0

/-- `x` is a number of at least one digit, and at most `max`. -/
def Number (max : Nat) (x : List Char) : Prop := x ≠ [] ∧ (∀ c ∈ x, '0' ≤ c ∧ c ≤ '9') ∧ value x ≤ max

/-- The digits of `x` after those of `n`. -/
def valueFrom (n : Nat) (x : List Char) : Nat := x.foldl (fun n c => n * 10 + (c.toNat - 48)) n

theorem valueFrom_ge (x : List Char) : ∀ n, n ≤ valueFrom n x := by
  induction x with
  | nil => exact fun n => Nat.le_refl _
  | cons c x ih => exact fun n => Nat.le_trans (by omega) (ih (n * 10 + (c.toNat - 48)))

theorem isDigit_iff (c : Char) : isDigit c = true ↔ '0' ≤ c ∧ c ≤ '9' := by
  unfold isDigit
  rw [Bool.and_eq_true, decide_eq_true_eq, decide_eq_true_eq]
  constructor
  · rintro ⟨h1, h2⟩
    exact ⟨h1, h2⟩
  · rintro ⟨h1, h2⟩
    exact ⟨h1, h2⟩

/-- Does not begin with a digit. -/
def Ends (t : List Char) : Prop := ∀ c s, t = c :: s → isDigit c = false

theorem dtoiGo_some : ∀ (s : List Char) (n m : Nat) (t : List Char), dtoiGo n s = some (m, t) →
    ∃ x, s = x ++ t ∧ (∀ c ∈ x, isDigit c = true) ∧ m = valueFrom n x ∧ Ends t
  | [], n, m, t, h => by
    simp only [dtoiGo, Option.some.injEq, Prod.mk.injEq] at h
    obtain ⟨rfl, rfl⟩ := h
    exact ⟨[], rfl, nofun, rfl, nofun⟩
  | c :: s, n, m, t, h => by
    unfold dtoiGo at h
    split at h
    · rename_i hd
      split at h
      · cases h
      · obtain ⟨x, h1, h2, h3, h4⟩ := dtoiGo_some s _ m t h
        refine ⟨c :: x, by rw [h1]; rfl, fun y hy => ?_, h3, h4⟩
        rcases List.mem_cons.1 hy with rfl | hy
        · exact hd
        · exact h2 y hy
    · rename_i hd
      simp only [Option.some.injEq, Prod.mk.injEq] at h
      obtain ⟨rfl, rfl⟩ := h
      refine ⟨[], rfl, nofun, rfl, fun c' s' e => ?_⟩
      injection e with e1 _
      subst e1
      simpa using hd

theorem dtoiGo_digits (t : List Char) (ht : Ends t) : ∀ (x : List Char) (n : Nat), (∀ c ∈ x, isDigit c = true) →
    valueFrom n x < 0xFFFFFF → dtoiGo n (x ++ t) = some (valueFrom n x, t)
  | [], n, _, _ => by
    cases t with
    | nil => rfl
    | cons c s => simp [dtoiGo, ht c s rfl, valueFrom]
  | c :: x, n, hd, hv => by
    have h1 : isDigit c = true := hd c List.mem_cons_self
    have h2 : n * 10 + (c.toNat - 48) < 0xFFFFFF := Nat.lt_of_le_of_lt (valueFrom_ge x _) hv
    have h3 := dtoiGo_digits t ht x (n * 10 + (c.toNat - 48)) (fun y hy => hd y (List.mem_cons_of_mem _ hy)) hv
    rw [List.cons_append, dtoiGo, if_pos h1, if_neg (by omega), h3]
    rfl

theorem octet_iff (s t : List Char) (a : UInt8) :
    octet s = some (a, t) ↔ ∃ x, s = x ++ t ∧ Number 255 x ∧ a = UInt8.ofNat (value x) ∧ Ends t := by
  unfold octet
  constructor
  · intro h
    split at h
    · cases h
    · rename_i n u hd
      split at h
      · cases h
      · rename_i hn
        simp only [Option.some.injEq, Prod.mk.injEq] at h
        obtain ⟨rfl, rfl⟩ := h
        cases s with
        | nil => cases hd
        | cons c s =>
          unfold dtoi at hd
          split at hd
          · cases hd
          · rename_i c' s' e
            injection e with e1 e2
            subst e1; subst e2
            split at hd
            · rename_i hc
              obtain ⟨x, h1, h2, h3, h4⟩ := dtoiGo_some _ _ _ _ hd
              refine ⟨x, h1, ⟨?_, fun y hy => (isDigit_iff y).1 (h2 y hy), ?_⟩, by rw [h3]; rfl, h4⟩
              · rintro rfl
                have := h4 c s h1.symm
                rw [hc] at this
                cases this
              · have : value x = n := h3.symm
                omega
            · cases hd
  · rintro ⟨x, rfl, ⟨h1, h2, h3⟩, rfl, h4⟩
    have hd : ∀ c ∈ x, isDigit c = true := fun c hc => (isDigit_iff c).2 (h2 c hc)
    have hg : dtoiGo 0 (x ++ t) = some (value x, t) :=
      dtoiGo_digits t h4 x 0 hd (Nat.lt_of_le_of_lt h3 (by decide))
    have e : dtoi (x ++ t) = some (value x, t) := by
      cases x with
      | nil => exact absurd rfl h1
      | cons c x => rw [← hg]; simp only [List.cons_append, dtoi, if_pos (hd c List.mem_cons_self)]
    rw [e]
    simp only
    rw [if_neg (by omega)]

theorem dot_iff (s t : List Char) : dot s = some t ↔ s = '.' :: t := by
  unfold dot
  split
  · simp
  · rename_i h
    exact ⟨nofun, fun e => absurd e (h t)⟩

/-- Four numbers of at most 255, with dots between them. -/
def FourNumbers (s : List Char) (ip : Bytes) : Prop := ∃ x y z v, Number 255 x ∧ Number 255 y ∧ Number 255 z ∧
  Number 255 v ∧ s = x ++ '.' :: (y ++ '.' :: (z ++ '.' :: v)) ∧
  ip = [0, 0, 0, 0, 0, 0, 0, 0, 0, 0, 255, 255, UInt8.ofNat (value x), UInt8.ofNat (value y), UInt8.ofNat (value z),
    UInt8.ofNat (value v)]

theorem parse_iff (s : List Char) (ip : Bytes) : parseIPv4 s = some ip ↔ FourNumbers s ip := by
  have ends : ∀ s, Ends ('.' :: s) := fun s c t e => by injection e with e _; subst e; rfl
  unfold parseIPv4
  simp only [Option.bind_eq_bind, Option.bind_eq_some_iff, dot_iff, octet_iff, Prod.exists]
  constructor
  · rintro ⟨a, s1, ⟨x, rfl, hx, rfl, -⟩, s2, rfl, b, s3, ⟨y, rfl, hy, rfl, -⟩, s4, rfl, c, s5, ⟨z, rfl, hz, rfl, -⟩, s6, rfl,
      d, s7, ⟨v, rfl, hv, rfl, -⟩, h⟩
    split at h
    · rename_i e
      subst e
      rw [List.append_nil]
      exact ⟨x, y, z, v, hx, hy, hz, hv, rfl, by injection h with h; exact h.symm⟩
    · cases h
  · rintro ⟨x, y, z, v, hx, hy, hz, hv, rfl, rfl⟩
    exact ⟨_, _, ⟨x, rfl, hx, rfl, ends _⟩, _, rfl, _, _, ⟨y, rfl, hy, rfl, ends _⟩, _, rfl, _, _, ⟨z, rfl, hz, rfl, ends _⟩,
      _, rfl, _, [], ⟨v, by simp, hv, rfl, nofun⟩, rfl⟩

/-! ### C141 -/

theorem decimal_value : ∀ (p : List Char) (n : Nat), (∀ c ∈ p, isDigit c = true) → decimal n p = some (valueFrom n p)
  | [], _, _ => rfl
  | c :: p, n, h => by
    rw [decimal, if_pos (h c List.mem_cons_self), decimal_value p _ fun y hy => h y (List.mem_cons_of_mem _ hy)]
    rfl

theorem digit_not {c : Char} (h : isDigit c = true) : c ≠ '+' ∧ c ≠ '-' ∧ c ≠ ':' ∧ c ≠ '[' ∧ c ≠ ']' := by
  refine ⟨?_, ?_, ?_, ?_, ?_⟩ <;> rintro rfl <;> cases h

theorem lookupPort_digits (r : Resolver) (p : List Char) (hp : p ≠ []) (hd : ∀ c ∈ p, isDigit c = true) :
    lookupPort r p = if value p ≤ 65535 then some (value p) else none := by
  have h : parsePort p = some (value p) := by
    rw [show value p = valueFrom 0 p from rfl, ← decimal_value p 0 hd]
    cases p with
    | nil => exact absurd rfl hp
    | cons c p =>
      have hc := digit_not (hd c List.mem_cons_self)
      unfold parsePort
      split
      · rename_i t e; injection e with e _; exact absurd e hc.1
      · rename_i t e; injection e with e _; exact absurd e hc.2.1
      · rfl
  unfold lookupPort
  rw [h]

theorem split_plain (host p : List Char) (hh : ':' ∉ host ∧ '[' ∉ host ∧ ']' ∉ host)
    (hd : ∀ c ∈ p, isDigit c = true) : splitHostPort (host ++ ':' :: p) = some (host, p) := by
  unfold splitHostPort
  rw [lastColon_append host p fun h => (digit_not (hd _ h)).2.2.1 rfl]
  simp only
  split
  · exact absurd List.mem_cons_self hh.2.1
  · rw [if_neg]
    rintro (h | h | h | h | h)
    · exact hh.1 h
    · exact hh.2.1 h
    · exact hh.2.2 h
    · exact (digit_not (hd _ h)).2.2.2.1 rfl
    · exact (digit_not (hd _ h)).2.2.2.2 rfl

/-- **C141, which texts are addresses.** A text of a host and a port of decimal digits, where the resolver does not know
the host as a name, is an address if and only if the host is four decimal numbers of at most 255 with dots between them
and the port is at most 65535; and then it is the address with these numbers. -/
theorem C141_text (r : Resolver) (order : Table → Table) (closing : Nat → Bool) (host port : List Char) (y : TCPAddr)
    (hh : ':' ∉ host ∧ '[' ∉ host ∧ ']' ∉ host) (h0 : host ≠ []) (hn : r.host host = none) (hp : port ≠ [])
    (hd : ∀ c ∈ port, '0' ≤ c ∧ c ≤ '9') :
    (world r order closing).resolve (String.ofList (host ++ ':' :: port)) = some y ↔
      Number 65535 port ∧ ∃ ip, FourNumbers host ip ∧ y = ⟨ip, value port⟩ := by
  have hd' : ∀ c ∈ port, isDigit c = true := fun c hc => (isDigit_iff c).2 (hd c hc)
  rw [world_resolve, String.toList_ofList]
  unfold resolve
  rw [if_neg (by simp), split_plain host port hh hd']
  simp only [Option.bind_eq_bind, Option.bind_some]
  rw [lookupPort_digits r port hp hd']
  by_cases hv : value port ≤ 65535
  · rw [if_pos hv]
    simp only [Option.bind_some]
    rw [if_neg h0]
    cases hpi : parseIPv4 host with
    | some ip =>
      have hf := (parse_iff host ip).1 hpi
      constructor
      · intro e
        injection e with e
        exact ⟨⟨hp, hd, hv⟩, ip, hf, e.symm⟩
      · rintro ⟨-, ip', hf', rfl⟩
        have := (parse_iff host ip').2 hf'
        rw [hpi] at this
        injection this with this
        rw [this]
    | none =>
      simp only [hn, Option.map_none]
      constructor
      · nofun
      · rintro ⟨-, ip', hf', -⟩
        have := (parse_iff host ip').2 hf'
        rw [hpi] at this
        cases this
  · rw [if_neg hv]
    constructor
    · nofun
    · rintro ⟨h, -⟩; exact absurd h.2.2 hv

theorem decimal_some : ∀ (p : List Char) (n m : Nat), decimal n p = some m → (∀ c ∈ p, isDigit c = true) ∧ m = valueFrom n p
  | [], n, m, h => ⟨nofun, (Option.some.inj h).symm⟩
  | c :: p, n, m, h => by
    unfold decimal at h
    split at h
    · rename_i hc
      obtain ⟨h1, h2⟩ := decimal_some p _ m h
      refine ⟨fun y hy => ?_, h2⟩
      rcases List.mem_cons.1 hy with rfl | hy
      · exact hc
      · exact h1 y hy
    · cases h

/-- **C141, which texts are ports.** If a text of a host and a port, neither of them with colons or brackets in it, is an
address, and the resolver does not know the port as the name of a service, then the port is a number of at most 65535:
decimal digits and nothing else, after at most one sign; and a minus only stands before zero. -/
theorem C141_port (r : Resolver) (order : Table → Table) (closing : Nat → Bool) (host port : List Char) (y : TCPAddr)
    (hh : ':' ∉ host ∧ '[' ∉ host ∧ ']' ∉ host) (hp : ':' ∉ port ∧ '[' ∉ port ∧ ']' ∉ port) (hn : r.port port = none)
    (h : (world r order closing).resolve (String.ofList (host ++ ':' :: port)) = some y) :
    ∃ digits : List Char, (port = digits ∨ port = '+' :: digits ∨ (port = '-' :: digits ∧ value digits = 0)) ∧
      (∀ c ∈ digits, '0' ≤ c ∧ c ≤ '9') ∧ value digits ≤ 65535 ∧ y.port = value digits := by
  have hs : splitHostPort (host ++ ':' :: port) = some (host, port) := by
    unfold splitHostPort
    rw [lastColon_append host port hp.1]
    simp only
    split
    · exact absurd List.mem_cons_self hh.2.1
    · rw [if_neg]
      rintro (h | h | h | h | h)
      · exact hh.1 h
      · exact hh.2.1 h
      · exact hh.2.2 h
      · exact hp.2.1 h
      · exact hp.2.2 h
  have key : ∀ n, lookupPort r port = some n → ∃ digits : List Char,
      (port = digits ∨ port = '+' :: digits ∨ (port = '-' :: digits ∧ value digits = 0)) ∧
      (∀ c ∈ digits, '0' ≤ c ∧ c ≤ '9') ∧ value digits ≤ 65535 ∧ n = value digits := by
    intro n hl
    have num : ∀ (ds : List Char) (m : Nat), decimal 0 ds = some m → (∀ c ∈ ds, '0' ≤ c ∧ c ≤ '9') ∧ m = value ds :=
      fun ds m e => ⟨fun c hc => (isDigit_iff c).1 ((decimal_some ds 0 m e).1 c hc), (decimal_some ds 0 m e).2⟩
    unfold lookupPort at hl
    split at hl
    · rename_i m hm
      split at hl
      · rename_i hle
        obtain rfl := Option.some.inj hl
        unfold parsePort at hm
        split at hm
        · rename_i ds
          obtain ⟨e1, e2⟩ := num ds m hm
          exact ⟨ds, .inr (.inl rfl), e1, e2 ▸ hle, e2⟩
        · rename_i ds
          obtain ⟨k, hk, e⟩ := Option.map_eq_some_iff.1 hm
          obtain ⟨e1, e2⟩ := num ds k hk
          split at e
          · rename_i h0
            exact ⟨ds, .inr (.inr ⟨rfl, by omega⟩), e1, by omega, by omega⟩
          · omega
        · obtain ⟨e1, e2⟩ := num port m hm
          exact ⟨port, .inl rfl, e1, e2 ▸ hle, e2⟩
      · cases hl
    · rw [hn] at hl; cases hl
  rw [world_resolve, String.toList_ofList] at h
  unfold resolve at h
  rw [if_neg (by simp), hs] at h
  simp only [Option.bind_eq_bind, Option.bind_some] at h
  cases hl : lookupPort r port with
  | none => rw [hl] at h; cases h
  | some n =>
    obtain ⟨ds, d1, d2, d3, d4⟩ := key n hl
    refine ⟨ds, d1, d2, d3, ?_⟩
    rw [hl] at h
    simp only [Option.bind_some] at h
    rw [← d4]
    split at h
    · rw [← Option.some.inj h]
    · split at h
      · rw [← Option.some.inj h]
      · obtain ⟨ip, -, e⟩ := Option.map_eq_some_iff.1 h
        rw [← e]

theorem literal_apart {t : Table} (ht : Literal t) (r : Resolver) (k1 k2 : String) (h1 : k1 ∈ t.map (·.1))
    (h2 : k2 ∈ t.map (·.1)) (hne : k1 ≠ k2) :
    ∃ x y, resolve r k1.toList = some x ∧ resolve r k2.toList = some y ∧ x ≠ y := by
  obtain ⟨a, b, c, d, p, e1⟩ := ht k1 h1
  obtain ⟨a', b', c', d', p', e2⟩ := ht k2 h2
  have r1 := resolve_ipv4 r a b c d p
  have r2 := resolve_ipv4 r a' b' c' d' p'
  have l1 : k1.toList = ipv4Text a b c d p := by rw [e1, written_eq, String.toList_ofList]
  have l2 : k2.toList = ipv4Text a' b' c' d' p' := by rw [e2, written_eq, String.toList_ofList]
  rw [← l1] at r1
  rw [← l2] at r2
  refine ⟨_, _, r1, r2, fun e => hne ?_⟩
  simp only [TCPAddr.mk.injEq, mapped, List.cons.injEq, true_and, and_true] at e
  obtain ⟨⟨f1, f2, f3, f4⟩, f5⟩ := e
  rw [e1, e2, f1, f2, f3, f4, UInt16.toNat_inj.1 (Int.ofNat.inj f5)]

/-- **C141, the part that holds.** Whatever messages come from the wire, two entries of the table of the shipped node
are different addresses: they resolve, and to different IPs or ports. -/
theorem C141_wire_partial {E : Env} (r : Resolver) (h : History E) (hw : FromWire h) (r' : Resolver) (k1 k2 : String)
    (h1 : k1 ∈ (afterMessages (shipped E r) h).table.map (·.1)) (h2 : k2 ∈ (afterMessages (shipped E r) h).table.map (·.1))
    (hne : k1 ≠ k2) : ∃ x y, resolve r' k1.toList = some x ∧ resolve r' k2.toList = some y ∧ x ≠ y :=
  literal_apart (C107_literal r h hw) r' k1 k2 h1 h2 hne

/-- The text of an IPv4 address with `k` zeros before the port. -/
def padded (a b c d : UInt8) (port : UInt16) (k : Nat) : String :=
  s!"{a.toNat}.{b.toNat}.{c.toNat}.{d.toNat}:" ++ String.ofList (List.replicate k '0') ++ toString port.toNat

theorem padded_eq (a b c d : UInt8) (port : UInt16) (k : Nat) : padded a b c d port k =
    String.ofList (dotted [a, b, c, d] ++ ':' :: (List.replicate k '0' ++ itoa port.toNat)) := by
  rw [← String.toList_inj, String.toList_ofList]
  have h : ∀ n : Nat, (toString n).toList = itoa n := toString_itoa
  simp only [padded, String.toList_append, String.toList_ofList, h, dotted]
  simp [toString]

example : padded 10 0 0 1 13414 2 = "10.0.0.1:0013414" := by decide

attribute [irreducible] padded

theorem padded_zero (a b c d : UInt8) (port : UInt16) : padded a b c d port 0 = written a b c d port := by
  rw [written_eq, padded_eq]; rfl

theorem padded_inj {a b c d : UInt8} {port : UInt16} {j k : Nat} (h : padded a b c d port j = padded a b c d port k) :
    j = k := by
  rw [padded_eq, padded_eq] at h
  have := congrArg List.length (String.ofList_injective h)
  simp only [List.length_append, List.length_cons, List.length_replicate] at this
  omega

theorem itoa_isDigit (n : Nat) : ∀ c ∈ itoa n, isDigit c = true := fun c hc => by
  obtain ⟨d, hd, rfl⟩ := itoa_digits n c hc
  exact (digit_spec d hd).1

theorem value_itoa (n : Nat) : value (itoa n) = n := by
  have h := decimal_itoa n []
  rw [List.append_nil, decimal_value _ _ (itoa_isDigit n)] at h
  exact Option.some.inj h

theorem value_zeros (k : Nat) (x : List Char) : value (List.replicate k '0' ++ x) = value x := by
  induction k with
  | zero => rfl
  | succ k ih => rw [← ih]; rfl

theorem resolve_padded (r : Resolver) (a b c d : UInt8) (port : UInt16) (k : Nat) :
    resolve r (padded a b c d port k).toList = some ⟨mapped a b c d, port.toNat⟩ := by
  have hd : ∀ x ∈ List.replicate k '0' ++ itoa port.toNat, isDigit x = true := fun x hx => by
    rcases List.mem_append.1 hx with h | h
    · rw [List.eq_of_mem_replicate h]; rfl
    · exact itoa_isDigit _ x h
  obtain ⟨e, s, -, he⟩ := dotted_cons a b c d
  rw [padded_eq, String.toList_ofList]
  unfold resolve
  rw [if_neg (by simp), split_plain _ _ ⟨fun h => (dotted_chars a b c d _ h).1 rfl, fun h => (dotted_chars a b c d _ h).2.1 rfl,
    fun h => (dotted_chars a b c d _ h).2.2 rfl⟩ hd]
  simp only [Option.bind_eq_bind, Option.bind_some]
  have hp : port.toNat ≤ 65535 := Nat.lt_succ_iff.1 port.toNat_lt
  rw [lookupPort_digits r _ (by
    intro e
    have := congrArg List.length e
    obtain ⟨x, t, -, hx⟩ := itoa_cons port.toNat
    rw [hx] at this
    simp at this) hd, value_zeros, value_itoa, if_pos hp]
  simp only [Option.bind_some]
  rw [if_neg (by rw [he]; simp), parse_dotted]

/-- **C141 is false of `Add`.** Zeros before the port make another text of the same address: the table can be filled up
to its limit with entries that are one address. -/
theorem C141_refuted (r : Resolver) (a b c d : UInt8) (port : UInt16) (hp : port ≠ 0)
    (ha : ¬ (224 ≤ a.toNat ∧ a.toNat < 240)) (n : Nat) (hn : n ≤ 10001) :
    ∃ calls : List String, calls.length = n ∧
      let t := addAll [] (calls.map fun s => ((fun s : String => resolve r s.toList), s))
      t.length = n ∧ UniqueKeys t ∧ ∀ e ∈ t, resolve r e.1.toList = some ⟨mapped a b c d, port.toNat⟩ := by
  have hadm : ∀ k, Admissible (fun s : String => resolve r s.toList) (padded a b c d port k) := fun k => by
    obtain ⟨y, hy, h⟩ := (admissible_written r id (fun _ => false) a b c d port).2 ⟨hp, ha⟩
    rw [world_resolve] at hy
    have e := resolve_padded r a b c d port 0
    rw [padded_zero, hy] at e
    cases e
    exact ⟨_, resolve_padded r a b c d port k, h⟩
  refine ⟨(List.range n).map (padded a b c d port), by simp, ?_⟩
  suffices h : addAll [] (((List.range n).map (padded a b c d port)).map
      fun s => ((fun s : String => resolve r s.toList), s)) =
      (List.range n).map fun k => (padded a b c d port k, blankEntry) by
    simp only [h]
    refine ⟨by simp, ?_, fun e he => ?_⟩
    · unfold UniqueKeys
      rw [List.map_map]
      exact List.Nodup.map (fun j k e => padded_inj e) List.nodup_range
    · obtain ⟨k, -, rfl⟩ := List.mem_map.1 he
      exact resolve_padded r a b c d port k
  induction n with
  | zero => rfl
  | succ n ih =>
    have := ih (by omega)
    unfold addAll at this ⊢
    rw [List.range_succ, List.map_append, List.map_append, List.foldl_append, this, List.map_append, List.map_cons,
      List.map_nil, List.map_cons, List.map_nil, List.map_cons, List.map_nil, List.foldl_cons, List.foldl_nil]
    refine (C55_add (fun s : String => resolve r s.toList) ((List.range n).map fun k => (padded a b c d port k, blankEntry))
      (padded a b c d port n)).1 ⟨hadm n, ?_, ?_⟩
    · rw [List.length_map, List.length_range]; omega
    · rw [List.map_map]
      intro hm
      obtain ⟨k, hk, e⟩ := List.mem_map.1 hm
      have := padded_inj e
      rw [List.mem_range] at hk
      omega

/-- 010.0.0.1, 10.0.0.1 and 10.0.0.256. -/
example : FourNumbers "010.0.0.1".toList (mapped 10 0 0 1) ∧ FourNumbers "10.0.0.1".toList (mapped 10 0 0 1) ∧
    ∀ ip, ¬ FourNumbers "10.0.0.256".toList ip := by
  refine ⟨(parse_iff _ _).1 (by decide), (parse_iff _ _).1 (by decide), fun ip h => ?_⟩
  have := (parse_iff _ _).2 h
  revert this
  rw [show parseIPv4 "10.0.0.256".toList = none by decide]
  nofun

/-- `C141_text` and `C141_port` apply: a port with a sign is an address, and one that is followed by something else is
none, whatever the host is. -/
example : (resolve noNames "10.0.0.1:13414".toList = some ⟨mapped 10 0 0 1, 13414⟩) ∧
    (resolve noNames "10.0.0.1:+80".toList = some ⟨mapped 10 0 0 1, 80⟩) ∧
    ∀ (order : Table → Table) (closing : Nat → Bool), (world noNames order closing).resolve "10.0.0.1:80x" = none := by
  refine ⟨by decide, by decide, fun order closing => ?_⟩
  cases h : (world noNames order closing).resolve "10.0.0.1:80x" with
  | none => rfl
  | some y =>
    obtain ⟨ds, h1 | h1 | ⟨h1, -⟩, h2, -⟩ := C141_port noNames order closing "10.0.0.1".toList "80x".toList y (by decide)
      (by decide) rfl (by rw [show String.ofList ("10.0.0.1".toList ++ ':' :: "80x".toList) = "10.0.0.1:80x" by decide]; exact h)
    · exact absurd (h2 'x' (h1 ▸ by decide)) (by decide)
    · exact absurd h1 (by simp)
    · exact absurd h1 (by simp)

end Gringo.Props
