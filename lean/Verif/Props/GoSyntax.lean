import Verif.Model.GoSyntax
/-
C139: the printed form of a message identifies it.
-/
namespace Gringo.Props.Print
open Gringo Gringo.P2P Gringo.Print

/-- The messages whose printed form tells all that is in them. -/
inductive Shown where
  | ping (p : Ping)
  | getPeerAddrs (p : GetPeerAddrs)
  | getBlock (hash : Option Bytes)
  | getBlockHeaders (hashes : Option (List (Option Bytes)))

/-- What `String` returns. -/
def Shown.text : Shown → List Char
  | .ping p => pingString p
  | .getPeerAddrs p => getPeerAddrsString p
  | .getBlock h => getBlockString h
  | .getBlockHeaders h => getBlockHeadersString h

/-- The characters of hexadecimal numbers. -/
def isHex (c : Char) : Bool := hexDigits.contains c

theorem digit_hex : ∀ n : Fin 16, isHex (hexDigits.getD n.val ' ') = true := by decide
theorem digit_inj : ∀ n m : Fin 16, hexDigits.getD n.val ' ' = hexDigits.getD m.val ' ' → n = m := by decide

theorem hexNum_hex (n : Nat) : ∀ c ∈ hexNum n, isHex c = true := by
  induction n using Nat.strongRecOn with
  | _ n ih =>
    intro c hc
    rw [hexNum] at hc
    split at hc
    · rename_i h
      simp only [List.mem_singleton] at hc
      subst hc
      exact digit_hex ⟨n, h⟩
    · rcases List.mem_append.1 hc with hc | hc
      · exact ih (n / 16) (by omega) c hc
      · simp only [List.mem_singleton] at hc
        subst hc
        exact digit_hex ⟨n % 16, Nat.mod_lt _ (by decide)⟩

theorem hexNum_ne (n : Nat) : hexNum n ≠ [] := by
  rw [hexNum]; split <;> simp

theorem hexNum_inj (n : Nat) : ∀ m, hexNum n = hexNum m → n = m := by
  induction n using Nat.strongRecOn with
  | _ n ih =>
    intro m h
    rw [hexNum, hexNum.eq_def m] at h
    split at h <;> split at h <;> rename_i h1 h2
    · have := digit_inj ⟨n, h1⟩ ⟨m, h2⟩ (by simpa using h)
      simpa using this
    · have hl := congrArg List.length h
      have : (hexNum (m / 16)).length ≠ 0 := fun e => hexNum_ne _ (List.length_eq_zero_iff.1 e)
      simp only [List.length_cons, List.length_nil, List.length_append] at hl
      omega
    · have hl := congrArg List.length h
      have : (hexNum (n / 16)).length ≠ 0 := fun e => hexNum_ne _ (List.length_eq_zero_iff.1 e)
      simp only [List.length_cons, List.length_nil, List.length_append] at hl
      omega
    · obtain ⟨e1, e2⟩ := List.append_inj' h (by simp)
      have h3 := ih (n / 16) (by omega) (m / 16) e1
      have h4 := digit_inj ⟨n % 16, Nat.mod_lt _ (by decide)⟩ ⟨m % 16, Nat.mod_lt _ (by decide)⟩ (by simpa using e2)
      simp only [Fin.mk.injEq] at h4
      omega

/-- Where a run of digits ends. -/
theorem split_hex {a b r r' : List Char} {c c' : Char} (ha : ∀ x ∈ a, isHex x = true) (hb : ∀ x ∈ b, isHex x = true)
    (hc : isHex c = false) (hc' : isHex c' = false) (h : a ++ c :: r = b ++ c' :: r') : a = b ∧ c :: r = c' :: r' := by
  induction a generalizing b with
  | nil =>
    cases b with
    | nil => exact ⟨rfl, h⟩
    | cons x b =>
      simp only [List.nil_append, List.cons_append, List.cons.injEq] at h
      rw [h.1, hb x (by simp)] at hc; cases hc
  | cons y a ih =>
    cases b with
    | nil =>
      simp only [List.nil_append, List.cons_append, List.cons.injEq] at h
      rw [← h.1, ha y (by simp)] at hc'; cases hc'
    | cons x b =>
      simp only [List.cons_append, List.cons.injEq] at h
      obtain ⟨e1, e2⟩ := ih (fun z hz => ha z (by simp [hz])) (fun z hz => hb z (by simp [hz])) h.2
      exact ⟨by rw [h.1, e1], e2⟩

/-- The text of a number ends where the digits end. -/
theorem sharpNum_split {n m : Nat} {r r' : List Char} {c c' : Char} (hc : isHex c = false) (hc' : isHex c' = false)
    (h : sharpNum n ++ c :: r = sharpNum m ++ c' :: r') : n = m ∧ c :: r = c' :: r' := by
  simp only [sharpNum, List.append_assoc, List.append_cancel_left_eq] at h
  obtain ⟨e1, e2⟩ := split_hex (hexNum_hex n) (hexNum_hex m) hc hc' h
  exact ⟨hexNum_inj n m e1, e2⟩

/-- The text of an element can be told from what follows, be it a comma or a brace, and does not begin with a brace. -/
structure Good {α : Type} (f : α → List Char) : Prop where
  split : ∀ {a b : α} {r r' : List Char} {c c' : Char}, (c = ',' ∨ c = '}') → (c' = ',' ∨ c' = '}') →
    f a ++ c :: r = f b ++ c' :: r' → a = b ∧ c :: r = c' :: r'
  first : ∀ a, ∃ c l, f a = c :: l ∧ c ≠ '}'

theorem Good.items {α : Type} {f : α → List Char} (hf : Good f) : ∀ {l l' : List α} {r r' : List Char},
    items f l ++ '}' :: r = items f l' ++ '}' :: r' → l = l' ∧ r = r' := by
  intro l
  induction l with
  | nil =>
    intro l' r r' h
    match l' with
    | [] => exact ⟨rfl, by simpa [Print.items] using h⟩
    | [a] =>
      obtain ⟨c, k, e, hne⟩ := hf.first a
      simp only [Print.items, e, List.nil_append, List.cons_append, List.cons.injEq] at h
      exact absurd h.1.symm hne
    | a :: b :: k' =>
      obtain ⟨c, k, e, hne⟩ := hf.first a
      simp only [Print.items, e, List.nil_append, List.cons_append, List.cons.injEq] at h
      exact absurd h.1.symm hne
  | cons x l ih =>
    intro l' r r' h
    match l', l with
    | [], [] =>
      obtain ⟨c, k, e, hne⟩ := hf.first x
      simp only [Print.items, e, List.nil_append, List.cons_append, List.cons.injEq] at h
      exact absurd h.1 hne
    | [], y :: l =>
      obtain ⟨c, k, e, hne⟩ := hf.first x
      simp only [Print.items, e, List.nil_append, List.cons_append, List.cons.injEq] at h
      exact absurd h.1 hne
    | [a], [] =>
      obtain ⟨e1, e2⟩ := hf.split (.inr rfl) (.inr rfl) (show f x ++ '}' :: r = f a ++ '}' :: r' from h)
      exact ⟨by rw [e1], by simpa using e2⟩
    | a :: b :: k, [] =>
      have h' : f x ++ '}' :: r = f a ++ ',' :: (' ' :: (Print.items f (b :: k) ++ '}' :: r')) := by
        rw [show Print.items f [x] = f x from rfl,
          show Print.items f (a :: b :: k) = f a ++ chars ", " ++ Print.items f (b :: k) from rfl] at h
        rw [h]; simp [chars, List.append_assoc]
      obtain ⟨-, e2⟩ := hf.split (.inr rfl) (.inl rfl) h'
      simp at e2
    | [a], y :: l =>
      have h' : f x ++ ',' :: (' ' :: (Print.items f (y :: l) ++ '}' :: r)) = f a ++ '}' :: r' := by
        rw [show Print.items f [a] = f a from rfl,
          show Print.items f (x :: y :: l) = f x ++ chars ", " ++ Print.items f (y :: l) from rfl] at h
        rw [← h]; simp [chars, List.append_assoc]
      obtain ⟨-, e2⟩ := hf.split (.inl rfl) (.inr rfl) h'
      simp at e2
    | a :: b :: k, y :: l =>
      have h' : f x ++ ',' :: (' ' :: (Print.items f (y :: l) ++ '}' :: r)) =
          f a ++ ',' :: (' ' :: (Print.items f (b :: k) ++ '}' :: r')) := by
        rw [show Print.items f (a :: b :: k) = f a ++ chars ", " ++ Print.items f (b :: k) from rfl,
          show Print.items f (x :: y :: l) = f x ++ chars ", " ++ Print.items f (y :: l) from rfl] at h
        simpa [chars, List.append_assoc] using h
      obtain ⟨e1, e2⟩ := hf.split (.inl rfl) (.inl rfl) h'
      simp only [List.cons.injEq, true_and] at e2
      obtain ⟨e3, e4⟩ := ih e2
      exact ⟨by rw [e1, e3], e4⟩

theorem comma : chars ", Height:" = ',' :: chars " Height:" := by simp [chars]

theorem good_byte : Good fun b : UInt8 => sharpNum b.toNat where
  split := by
    intro a b r r' c c' hc hc' h
    have n1 : isHex c = false := by rcases hc with rfl | rfl <;> decide
    have n2 : isHex c' = false := by rcases hc' with rfl | rfl <;> decide
    obtain ⟨e1, e2⟩ := sharpNum_split n1 n2 h
    exact ⟨UInt8.toNat_inj.1 e1, e2⟩
  first a := ⟨'0', 'x' :: hexNum a.toNat, by simp [sharpNum, chars], by decide⟩

/-- A slice can be told from what follows, whatever that is. -/
theorem Good.slice {α : Type} {f : α → List Char} (hf : Good f) (type : String) {o o' : Option (List α)}
    {r r' : List Char} (h : sharpSlice type f o ++ r = sharpSlice type f o' ++ r') : o = o' ∧ r = r' := by
  cases o with
  | none =>
    cases o' with
    | none => exact ⟨rfl, by simpa [sharpSlice, List.append_assoc] using h⟩
    | some l => simp [sharpSlice, chars, List.append_assoc] at h
  | some k =>
    cases o' with
    | none => simp [sharpSlice, chars, List.append_assoc] at h
    | some l =>
      simp only [sharpSlice, List.append_assoc, List.cons_append, List.append_cancel_left_eq, List.cons.injEq, true_and,
        List.nil_append] at h
      obtain ⟨e1, e2⟩ := hf.items h
      exact ⟨by rw [e1], e2⟩

theorem good_hash : Good sharpHash where
  split := by
    intro a b r r' c c' _ _ h
    exact good_byte.slice _ h
  first a := by
    have e : chars "consensus.Hash" = 'c' :: chars "onsensus.Hash" := by simp [chars]
    cases a with
    | none => exact ⟨'c', chars "onsensus.Hash" ++ chars "(nil)", by simp [sharpHash, sharpSlice, e], by decide⟩
    | some l => exact ⟨'c', _, by rw [sharpHash, sharpSlice, e, List.cons_append, List.cons_append], by decide⟩

/-- C139, the part that holds: two Pings, requests for addresses, blocks or headers that print alike are equal, in kind and
contents. Also `nil` and a slice without elements print differently. -/
theorem C139_text_partial (a b : Shown) (h : a.text = b.text) : a = b := by
  have hx : isHex '}' = false := by decide
  have hy : isHex ',' = false := by decide
  cases a with
  | ping p =>
    cases b with
    | ping q =>
      simp only [Shown.text, pingString, comma, List.append_assoc, List.append_cancel_left_eq, List.cons_append] at h
      obtain ⟨e1, e2⟩ := sharpNum_split hy hy h
      simp only [List.cons.injEq, true_and, List.append_cancel_left_eq] at e2
      obtain ⟨e3, -⟩ := sharpNum_split hx hx e2
      cases p; cases q
      simp only at e1 e3
      rw [UInt64.toNat_inj.1 e1, UInt64.toNat_inj.1 e3]
    | getPeerAddrs q => simp [Shown.text, pingString, getPeerAddrsString, chars] at h
    | getBlock q => simp [Shown.text, pingString, getBlockString, chars] at h
    | getBlockHeaders q => simp [Shown.text, pingString, getBlockHeadersString, chars] at h
  | getPeerAddrs p =>
    cases b with
    | ping q => simp [Shown.text, pingString, getPeerAddrsString, chars] at h
    | getPeerAddrs q =>
      simp only [Shown.text, getPeerAddrsString, List.append_assoc, List.append_cancel_left_eq] at h
      obtain ⟨e1, -⟩ := sharpNum_split hx hx h
      cases p; cases q
      simp only at e1
      rw [UInt32.toNat_inj.1 e1]
    | getBlock q => simp [Shown.text, getPeerAddrsString, getBlockString, chars] at h
    | getBlockHeaders q => simp [Shown.text, getPeerAddrsString, getBlockHeadersString, chars] at h
  | getBlock p =>
    cases b with
    | ping q => simp [Shown.text, pingString, getBlockString, chars] at h
    | getPeerAddrs q => simp [Shown.text, getPeerAddrsString, getBlockString, chars] at h
    | getBlock q =>
      simp only [Shown.text, getBlockString, List.append_assoc, List.append_cancel_left_eq] at h
      rw [(good_byte.slice _ h).1]
    | getBlockHeaders q => simp [Shown.text, getBlockString, getBlockHeadersString, chars] at h
  | getBlockHeaders p =>
    cases b with
    | ping q => simp [Shown.text, pingString, getBlockHeadersString, chars] at h
    | getPeerAddrs q => simp [Shown.text, getPeerAddrsString, getBlockHeadersString, chars] at h
    | getBlock q => simp [Shown.text, getBlockString, getBlockHeadersString, chars] at h
    | getBlockHeaders q =>
      simp only [Shown.text, getBlockHeadersString, List.append_assoc, List.append_cancel_left_eq] at h
      rw [(good_hash.slice _ h).1]

/-- C139, what does not hold. A Pong prints as a Ping with the same numbers. A list of addresses prints where in memory the
addresses are and not what they are: it may hold any others and print alike. -/
theorem C139_refuted :
    (∀ p : Ping, pongString p = (Shown.ping p).text) ∧
    ∀ (α : Type) (pointers : List Nat) (a b : List α), a.length = pointers.length → b.length = pointers.length →
      peerAddrsString (some (pointers.zip a)) = peerAddrsString (some (pointers.zip b)) := by
  refine ⟨fun _ => rfl, fun α ps a b ha hb => ?_⟩
  have key : ∀ (l : List (Nat × α)), items (fun p : Nat × α => sharpPointer "*net.TCPAddr" p.1) l =
      items (sharpPointer "*net.TCPAddr") (l.map Prod.fst) := by
    intro l
    induction l with
    | nil => rfl
    | cons x l ih =>
      cases l with
      | nil => rfl
      | cons y l => simp only [List.map_cons, items] at ih ⊢; rw [ih]
  have h1 : (ps.zip a).map Prod.fst = (ps.zip b).map Prod.fst := by
    rw [List.map_fst_zip (by omega), List.map_fst_zip (by omega)]
  simp only [peerAddrsString, sharpSlice, key, h1]

/-- The texts, as Go prints them. -/
example : (Shown.ping { totalDifficulty := 1, height := 255 }).text =
    "p2p.Ping{TotalDifficulty:0x1, Height:0xff}".toList := by
  simp [Shown.text, pingString, sharpNum, hexNum, hexDigits, chars]

example : (Shown.getBlockHeaders (some [some [0, 16], none, some []])).text =
    ("p2p.GetBlockHeaders{Locator:consensus.Locator{Hashes:[]consensus.Hash{" ++
      "consensus.Hash{0x0, 0x10}, consensus.Hash(nil), consensus.Hash{}}}}").toList := by
  simp [Shown.text, getBlockHeadersString, sharpSlice, sharpHash, items, sharpNum, hexNum, hexDigits, chars]

example : peerAddrsString (some [(824634400768, "192.0.2.1:13414")]) =
    "p2p.PeerAddrs{peers:[]*net.TCPAddr{(*net.TCPAddr)(0xc0000a6000)}}".toList := by
  simp [peerAddrsString, sharpPointer, sharpSlice, items, sharpNum, hexNum, hexDigits, chars]

end Gringo.Props.Print
