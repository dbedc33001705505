import Verif.Spec.Chain
import Verif.Props.Blocks
import Verif.Props.Validity
import Verif.Props.Difficulty
import Mathlib.Data.List.TakeWhile
/-
C46-C53: the chain.
-/
namespace Gringo.Props
open Gringo.Spec

/-! ### C46 -/

theorem afterCalls_eq {E : Env} (c : Chain E) (history : List (Storage E × ChainCall E)) :
    afterCalls c history = c := by
  induction history generalizing c with
  | nil => rfl
  | cons x t ih =>
    have : afterCall c x.1 x.2 = c := by cases x.2 <;> rfl
    simp only [afterCalls, List.foldl_cons, this]
    exact ih c

/-- **C46.** Start with any genesis block and storage and call anything any number of times: height and total
difficulty are the head's, and a longer history never has a lower height or total difficulty. -/
theorem C46_getters_agree {E : Env} (genesis : Block E) (st : Storage E)
    (h1 h2 : List (Storage E × ChainCall E)) :
    let c := afterCalls (Chain.new genesis st) h1
    let c' := afterCalls (Chain.new genesis st) (h1 ++ h2)
    c.height = c.head.header.height ∧ c.totalDifficulty = c.head.header.totalDifficulty ∧
    c.height ≤ c'.height ∧ c.totalDifficulty ≤ c'.totalDifficulty ∧
    c.genesis = genesis ∧ c.head = (st.getLastBlock).getD genesis := by
  simp only [afterCalls_eq]
  unfold Chain.new
  cases st.getLastBlock <;>
    exact ⟨rfl, rfl, UInt64.le_refl _, UInt64.le_refl _, rfl, rfl⟩

/-! ### C47 -/

theorem after_iff (a b : Time) : a.after b = true ↔ Later a b := by
  simp [Time.after, Later]

theorem u64_add_toNat (a b c : UInt64) : a = b + c ↔ a.toNat = (b.toNat + c.toNat) % 2 ^ 64 := by
  rw [← UInt64.toNat_inj, UInt64.toNat_add]

theorem fromHeight_eq (h : UInt64) :
    (if h > UInt64.ofNat Chain.diffLimit then h - UInt64.ofNat Chain.diffLimit else 0) =
      UInt64.ofNat (windowStart h.toNat) := by
  have e : (UInt64.ofNat Chain.diffLimit).toNat = 71 := by decide
  have hlt := h.toNat_lt
  apply UInt64.toNat_inj.1
  rw [UInt64.toNat_ofNat', Nat.mod_eq_of_lt (by unfold windowStart; omega)]
  unfold windowStart
  split
  · rename_i hgt
    have := UInt64.lt_iff_toNat_lt.1 hgt
    rw [UInt64.toNat_sub_of_le _ _ (UInt64.le_iff_toNat_le.2 (by omega)), e]
  · rename_i hgt
    have : ¬ (UInt64.ofNat Chain.diffLimit).toNat < h.toNat := fun h => hgt (UInt64.lt_iff_toNat_lt.2 h)
    rw [e] at this
    show (0 : UInt64).toNat = _
    have : (0 : UInt64).toNat = 0 := rfl
    omega

/-- The parent of a block: hash `Previous`, height one less (mod 2^64). -/
def parentID {E : Env} (b : Block E) : BlockID :=
  { hash := some b.header.previous, height := some (b.header.height - 1) }

/-- The blocks the difficulty rule looks at. -/
def difficultyWindow {E : Env} (st : Storage E) (b : Block E) : List (Block E) :=
  st.from { hash := none, height := some (UInt64.ofNat (windowStart b.header.height.toNat)) } 71

theorem checkParent_iff {E : Env} (st : Storage E) (b : Block E) :
    Chain.checkParent st b = .ok () ↔
      st.getBlock (parentID b) = none ∨
      ∃ p, st.getBlock (parentID b) = some p ∧ Follows E b p (difficultyWindow st b) := by
  unfold Chain.checkParent
  simp only [fromHeight_eq]
  change (match st.getBlock (parentID b) with | none => _ | some prev => _) = _ ↔ _
  cases hp : st.getBlock (parentID b) with
  | none => simp
  | some p =>
    simp only [reduceCtorEq, false_or, Option.some.injEq, exists_eq_left']
    unfold Follows
    rw [← after_iff]
    by_cases ht : b.header.timestamp.after p.header.timestamp = true
    swap
    · simp [ht]
    rw [if_neg (by simp [ht])]
    cases hd : p.header.pow.toDifficulty E with
    | ok d =>
      simp only [Out.bind_ok, ht, true_and, Out.ok.injEq, exists_eq_left']
      rw [← u64_add_toNat]
      by_cases htd : b.header.totalDifficulty = p.header.totalDifficulty + d
      swap
      · simp [htd]
      rw [if_neg (by simp [htd])]
      change (nextDifficulty ((difficultyWindow st b).map (·.header)) >>= _) = _ ↔ _
      obtain ⟨nd, hnd, -⟩ := C35_next_difficulty ((difficultyWindow st b).map (·.header))
      rw [hnd]
      simp only [Out.bind_ok, Out.ok.injEq, exists_eq_left', htd, true_and]
      by_cases hlow : b.header.difficulty < nd
      · rw [if_pos hlow]
        have := UInt64.lt_iff_toNat_lt.1 hlow
        simp; omega
      · rw [if_neg hlow]
        have : ¬ b.header.difficulty.toNat < nd.toNat := fun h => hlow (UInt64.lt_iff_toNat_lt.2 h)
        simp; omega
    | err _ => simp
    | panic _ => simp
    | fatal _ => simp

/-- **C47.** A block whose hash can be computed (as for every decoded one, C13) is accepted exactly if it has
the hash of the tip, or it is valid and its parent is unknown or it correctly follows its parent. -/
theorem C47_accept_rule {E : Env} (c : Chain E) (st : Storage E) (b : Block E) (headHash hash : Bytes)
    (hh : HasHash c.head headHash) (hb : HasHash b hash) :
    (c.processBlock st b).1 = .ok () ↔
      hash = headHash ∨
      b.validate = .ok () ∧
        (st.getBlock (parentID b) = none ∨
         ∃ p, st.getBlock (parentID b) = some p ∧ Follows E b p (difficultyWindow st b)) := by
  unfold HasHash at hh hb
  rw [← checkParent_iff]
  unfold Chain.processBlock
  simp only [hh, hb, Out.bind_ok]
  by_cases he : headHash = hash
  · simp [he]
  · rw [if_neg he]
    have : ¬ hash = headHash := fun h => he h.symm
    simp only [this, false_or]
    cases b.validate <;> simp

/-- **C47, time stamps of decoded blocks.** For time stamps with whole seconds, later means a larger number
of seconds. -/
theorem C47_later_seconds (a b : Time) (ha : a.nsec = 0) (hb : b.nsec = 0) : Later a b ↔ b.sec < a.sec := by
  unfold Later; omega

/-! ### C48 -/

/-- **C48 is false of the code.** A block read from the wire whose parent is stored is rejected whenever the
storage returns any blocks for the difficulty rule, however correct the block is: its `Difficulty` is not
transmitted, so it is 0, and at least 1 is required. -/
theorem C48_refuted {E : Env} (c : Chain E) (st : Storage E) (wire rest : Bytes) (b p : Block E)
    (hw : Block.read E wire = (.ok b, rest)) (headHash hash : Bytes) (hh : HasHash c.head headHash)
    (hb : HasHash b hash) (hne : hash ≠ headHash) (hp : st.getBlock (parentID b) = some p)
    (hwin : difficultyWindow st b ≠ []) :
    (c.processBlock st b).1 ≠ .ok () := by
  intro hok
  rcases (C47_accept_rule c st b headHash hash hh hb).1 hok with h | ⟨-, h | ⟨p', hp', -, -, nd, hnd, hle⟩⟩
  · exact hne h
  · rw [hp] at h; cases h
  · obtain ⟨⟨r1, h1⟩, -⟩ := block_read_ok hw
    have hz : b.header.difficulty = 0 := by
      rw [← (C13_decoded_shape E _ _ _ h1).2]; rfl
    obtain ⟨d, hd, hpos, -⟩ := C35_next_difficulty ((difficultyWindow st b).map (·.header))
    rw [hd] at hnd
    cases hnd
    have := hpos (by simpa using hwin)
    rw [hz] at hle
    have : (0 : UInt64).toNat = 0 := rfl
    omega

theorem list_window {E : Env} (blocks : List (Block E)) (hc : Consecutive blocks) (b p : Block E)
    (hp : (listStorage blocks).getBlock (parentID b) = some p) :
    difficultyWindow (listStorage blocks) b ≠ [] := by
  obtain ⟨hlen, hc⟩ := hc
  have hm : p ∈ blocks := List.mem_of_find?_eq_some hp
  have hmatch : Matches (parentID b) p := by
    have := List.find?_some hp
    simpa using this
  have hpH : p.header.height = b.header.height - 1 := hmatch.2
  obtain ⟨i, hi, hip⟩ := List.mem_iff_getElem.1 hm
  have hci := hc i p (by rw [List.getElem?_eq_getElem hi, hip])
  have hpos : b.header.height.toNat ≠ 0 := by
    intro h0
    have hz : b.header.height = 0 := UInt64.toNat_inj.1 (by rw [h0]; rfl)
    rw [hpH, hz] at hci
    have h1 : ((0 : UInt64) - 1).toNat = 2 ^ 64 - 1 := by decide
    have h2 := congrArg UInt64.toNat hci
    rw [h1, UInt64.toNat_ofNat', Nat.mod_eq_of_lt (by omega)] at h2
    omega
  have hsub : (b.header.height - 1).toNat = b.header.height.toNat - 1 := by
    rw [UInt64.toNat_sub_of_le]
    · rfl
    · rw [UInt64.le_iff_toNat_le]
      have : (1 : UInt64).toNat = 1 := rfl
      omega
  have hi' : i = b.header.height.toNat - 1 := by
    have h2 := congrArg UInt64.toNat (hpH.symm.trans hci)
    rw [hsub, UInt64.toNat_ofNat', Nat.mod_eq_of_lt (by omega)] at h2
    omega
  have hlt := b.header.height.toNat_lt
  have hws : windowStart b.header.height.toNat ≤ i := by unfold windowStart; omega
  have hws' : windowStart b.header.height.toNat < blocks.length := by omega
  unfold difficultyWindow listStorage
  simp only
  intro hnil
  rw [List.take_eq_nil_iff] at hnil
  rcases hnil with h | h
  · omega
  · rw [List.dropWhile_eq_nil_iff] at h
    have hb := h _ (List.getElem_mem hws')
    simp only [decide_not, Bool.not_eq_eq_eq_not, Bool.not_true, decide_eq_false_iff_not] at hb
    apply hb
    refine ⟨trivial, ?_⟩
    exact hc _ _ (List.getElem?_eq_getElem hws')

/-- **C48 is false of the code, for a proper storage.** With any chain of blocks of heights 0, 1, 2, … in
the storage, no block from the wire that extends a stored one is accepted (unless it has the hash of the
tip). -/
theorem C48_refuted_list {E : Env} (c : Chain E) (blocks : List (Block E)) (hc : Consecutive blocks)
    (wire rest : Bytes) (b p : Block E) (hw : Block.read E wire = (.ok b, rest)) (headHash hash : Bytes)
    (hh : HasHash c.head headHash) (hb : HasHash b hash) (hne : hash ≠ headHash)
    (hp : (listStorage blocks).getBlock (parentID b) = some p) :
    (c.processBlock (listStorage blocks) b).1 ≠ .ok () :=
  C48_refuted c _ wire rest b p hw headHash hash hh hb hne hp (list_window blocks hc b p hp)

/-- **C48, the part that holds**: a valid block from the wire is accepted when its parent is *not* stored,
or when it follows the parent and the storage returns nothing for the difficulty rule. -/
theorem C48_unknown_parent_partial {E : Env} (c : Chain E) (st : Storage E) (wire rest : Bytes) (b : Block E)
    (hw : Block.read E wire = (.ok b, rest)) (headHash : Bytes) (hh : HasHash c.head headHash)
    (hv : b.validate = .ok ())
    (h : st.getBlock (parentID b) = none ∨
      ∃ p, st.getBlock (parentID b) = some p ∧ Later b.header.timestamp p.header.timestamp ∧
        (∃ d : UInt64, p.header.pow.toDifficulty E = .ok d ∧
          b.header.totalDifficulty.toNat = (p.header.totalDifficulty.toNat + d.toNat) % 2 ^ 64) ∧
        difficultyWindow st b = []) :
    (c.processBlock st b).1 = .ok () := by
  obtain ⟨⟨r1, h1⟩, -⟩ := block_read_ok hw
  have hs := (C13_decoded_safe E _ _ _ h1).2.1
  obtain ⟨hash, hb⟩ : ∃ x, b.hash = .ok x := by
    unfold Block.hash
    cases hx : b.header.hash E with
    | ok x => exact ⟨x, rfl⟩
    | _ => rw [hx] at hs; cases hs
  refine (C47_accept_rule c st b headHash hash hh hb).2 (.inr ⟨hv, ?_⟩)
  rcases h with h | ⟨p, hp, ht, hd, hwin⟩
  · exact .inl h
  · refine .inr ⟨p, hp, ht, hd, 0, ?_, Nat.zero_le _⟩
    rw [hwin]; rfl

/-! ### C49 -/

/-- **C49 is false of the code.** Whatever block is processed and whatever the result: head, height and total
difficulty stay as they were. So if an accepted block differs from the head, it does not become the head. -/
theorem C49_refuted {E : Env} (c : Chain E) (st : Storage E) (b : Block E) :
    (c.processBlock st b).2 = c ∧ (b ≠ c.head → (c.processBlock st b).2.head ≠ b) :=
  ⟨rfl, fun h h' => h h'.symm⟩

/-- **C49, the part that holds**: processing the tip again is accepted and the tip stays the head. -/
theorem C49_tip_partial {E : Env} (c : Chain E) (st : Storage E) (h : Bytes) (hh : HasHash c.head h) :
    c.processBlock st c.head = (.ok (), c) := by
  have := (C47_accept_rule c st c.head h h hh hh).2 (.inl rfl)
  exact Prod.ext this rfl

/-! ### C50 -/

/-- **C50.** The answer to a locator: take its first 14 hashes; the first of them that is the head's hash or
for which the storage returns blocks decides. For the head (or if there is no such hash) the answer is empty,
otherwise it is what the storage returns after the first block. -/
theorem C50_answer {E : Env} (c : Chain E) (st : Storage E) (loc : Locator) (headHash : Bytes)
    (hh : HasHash c.head headHash) :
    c.getBlockHeaders st loc = .ok
      (match (loc.hashes.take 14).find?
          (fun h => decide (h = headHash ∨ st.from { hash := some h, height := none } 513 ≠ [])) with
      | none => []
      | some h => if h = headHash then []
          else ((st.from { hash := some h, height := none } 513).drop 1).map (·.header)) := by
  have e : (if loc.hashes.length > MaxLocators then loc.hashes.take MaxLocators else loc.hashes) =
      loc.hashes.take 14 := by
    split
    · rfl
    · rename_i h
      rw [List.take_of_length_le]
      unfold MaxLocators at h; omega
  unfold Chain.getBlockHeaders
  rw [e]
  generalize loc.hashes.take 14 = hs
  induction hs with
  | nil => rfl
  | cons h t ih =>
    unfold HasHash at hh
    simp only [Chain.headersLoop, hh, Out.bind_ok]
    by_cases h1 : h = headHash
    · simp [h1]
    · rw [if_neg h1]
      have : P2P.MaxBlockHeaders + 1 = 513 := rfl
      rw [this]
      cases hf : st.from { hash := some h, height := none } 513 with
      | nil =>
        rw [List.find?_cons_of_neg (by simp [h1, hf])]
        exact ih
      | cons x xs =>
        rw [List.find?_cons_of_pos (by simp [hf])]
        simp [h1, hf]

/-- **C50, limit.** With a storage that respects limits there are at most 512 headers, so the answer can be
sent (C21). -/
theorem C50_limit {E : Env} (c : Chain E) (st : Storage E) (loc : Locator) (headHash : Bytes)
    (hh : HasHash c.head headHash) (hlim : ∀ id n, (st.from id n).length ≤ n) :
    ∃ r, c.getBlockHeaders st loc = .ok r ∧ r.length ≤ 512 := by
  refine ⟨_, C50_answer c st loc headHash hh, ?_⟩
  split
  · simp
  · split
    · simp
    · rename_i h _ _
      have := hlim { hash := some h, height := none } 513
      rw [List.length_map, List.length_drop]; omega

/-- **C50, contents.** With a chain of blocks of different hashes in the storage and a locator hash of one of
them that is decisive: the answer is the (at most 512) headers following that block. -/
theorem C50_following {E : Env} (c : Chain E) (pre post : List (Block E)) (x : Block E) (loc : Locator)
    (headHash h : Bytes) (hh : HasHash c.head headHash) (hx : HasHash x h)
    (hpre : ∀ b ∈ pre, ¬ HasHash b h) (before after : List Bytes)
    (hloc : loc.hashes.take 14 = before ++ h :: after) (hne : h ≠ headHash)
    (hbefore : ∀ h' ∈ before, h' ≠ headHash ∧ ∀ b ∈ pre ++ x :: post, ¬ HasHash b h') :
    c.getBlockHeaders (listStorage (pre ++ x :: post)) loc = .ok ((post.take 512).map (·.header)) := by
  have hfrom : (listStorage (pre ++ x :: post)).from { hash := some h, height := none } 513 =
      x :: post.take 512 := by
    unfold listStorage
    simp only
    rw [List.dropWhile_append_of_pos]
    · rw [List.dropWhile_cons_of_neg]
      · rfl
      · have : Matches { hash := some h, height := none } x := ⟨hx, trivial⟩
        simp [this]
    · intro b hb
      have : ¬ Matches { hash := some h, height := none } b := fun hm => hpre b hb hm.1
      simp [this]
  have hfrom' : ∀ h' ∈ before, (listStorage (pre ++ x :: post)).from { hash := some h', height := none } 513 = [] := by
    intro h' hm
    unfold listStorage
    simp only
    rw [List.dropWhile_eq_nil_iff.2]
    · rfl
    · intro b hb
      have : ¬ Matches { hash := some h', height := none } b := fun hmm => (hbefore h' hm).2 b hb hmm.1
      simp [this]
  rw [C50_answer c _ loc headHash hh, hloc, List.find?_append, List.find?_eq_none.2]
  · rw [List.find?_cons_of_pos (by simp [hfrom])]
    simp [hne, hfrom]
  · intro h' hm
    simp [(hbefore h' hm).1, hfrom' h' hm]

/-! ### C51 -/

/-- **C51 is false of the code: invalid blocks are missed.** Once the head is valid, nothing else is looked
at: validation succeeds in the first round whatever the storage contains. -/
theorem C51_refuted_misses {E : Env} (c : Chain E) (g : Bytes) (hg : HasHash c.genesis g)
    (hv : c.head.validate = .ok ()) (st : Storage E) (n : Nat) : c.validate st (n + 1) = some (.ok ()) := by
  unfold HasHash at hg
  simp only [Chain.validate, Chain.validateLoop, hg, hv]
  split <;> rfl

/-- **C51 is false of the code: it may not terminate.** If the head is invalid and the storage returns a block
whose predecessor is again that block, the loop never ends. -/
theorem C51_refuted_diverges {E : Env} (c : Chain E) (g : Bytes) (hg : HasHash c.genesis g) (e : String)
    (hv : c.head.validate = .err e) (hp : c.head.header.previous ≠ g) (hp0 : c.head.header.previous ≠ [])
    (st : Storage E) (hst : st.getBlock { hash := some c.head.header.previous, height := none } = some c.head)
    (n : Nat) : c.validate st n = none := by
  unfold HasHash at hg
  unfold Chain.validate
  induction n with
  | zero => rfl
  | succ n ih =>
    simp only [Chain.validateLoop, hg, hv]
    rw [if_neg hp]
    simp only [Chain.getBlock]
    rw [if_neg hp0]
    simp only [hst]
    exact ih

theorem validateLoop_err {E : Env} (c : Chain E) (g : Bytes) (hg : HasHash c.genesis g) (st : Storage E)
    (e : String) : ∀ (n : Nat) (b : Block E), c.validateLoop st n b = some (.err e) →
    ∃ z, InvalidWalk st b z ∧ c.getBlock st z.header.previous = none := by
  unfold HasHash at hg
  intro n
  induction n with
  | zero => intro b h; cases h
  | succ n ih =>
    intro b h
    simp only [Chain.validateLoop, hg] at h
    split at h
    · cases h
    · cases hv : b.validate with
      | ok _ => rw [hv] at h; cases h
      | panic _ => rw [hv] at h; cases h
      | fatal _ => rw [hv] at h; cases h
      | err e' =>
        rw [hv] at h
        simp only at h
        cases hp : c.getBlock st b.header.previous with
        | none => exact ⟨b, .here b e' hv, hp⟩
        | some p =>
          rw [hp] at h
          obtain ⟨z, hz, hn⟩ := ih p h
          refine ⟨z, .back b p z e' hv ?_ hz, hn⟩
          unfold Chain.getBlock at hp
          split at hp
          · cases hp
          · exact hp

/-- **C51, the part that holds**: an error is only returned for a really broken chain: following the links
from the head there are only invalid blocks, down to one whose predecessor is missing. -/
theorem C51_error_partial {E : Env} (c : Chain E) (g : Bytes) (hg : HasHash c.genesis g) (st : Storage E)
    (n : Nat) (e : String) (h : c.validate st n = some (.err e)) :
    ∃ z, InvalidWalk st c.head z ∧ c.getBlock st z.header.previous = none :=
  validateLoop_err c g hg st e n c.head h

/-- **C51, termination where the links are sane**: if the predecessor of the head, and of every stored block,
has a smaller height (or is not stored), `height + 1` rounds suffice. -/
theorem C51_terminates_partial {E : Env} (c : Chain E) (st : Storage E)
    (hdec : ∀ b p : Block E, (b = c.head ∨ ∃ id, st.getBlock id = some b) →
      st.getBlock { hash := some b.header.previous, height := none } = some p →
      p.header.height < b.header.height) :
    c.validate st (c.head.header.height.toNat + 1) ≠ none := by
  suffices ∀ n (b : Block E), (b = c.head ∨ ∃ id, st.getBlock id = some b) → b.header.height.toNat < n →
      c.validateLoop st n b ≠ none from this _ _ (.inl rfl) (by omega)
  intro n
  induction n with
  | zero => intro b _ h; omega
  | succ n ih =>
    intro b hb h
    simp only [Chain.validateLoop]
    split
    · split
      · simp
      · split
        · simp
        · simp
        · simp
        · split
          · simp
          · rename_i p hp
            unfold Chain.getBlock at hp
            split at hp
            · cases hp
            · have := UInt64.lt_iff_toNat_lt.1 (hdec b p hb hp)
              exact ih p (.inr ⟨_, hp⟩) (by omega)
    · simp
    · simp
    · simp

/-! ### C52 -/

/-- **C52.** Header processing succeeds exactly if all headers are valid; it fails (or crashes) exactly like
the first header that is not. It takes no chain and returns none, so it cannot change one. -/
theorem C52_process_headers (E : Env) (hs : List BlockHeader) :
    (Chain.processHeaders E hs = .ok () ↔ ∀ h ∈ hs, h.validate E = .ok ()) ∧
    (∀ r, r ≠ .ok () → (Chain.processHeaders E hs = r ↔
      ∃ pre h post, hs = pre ++ h :: post ∧ (∀ x ∈ pre, x.validate E = .ok ()) ∧ h.validate E = r)) := by
  induction hs with
  | nil =>
    refine ⟨by simp [Chain.processHeaders], fun r hr => ?_⟩
    simp only [Chain.processHeaders]
    constructor
    · intro h; exact absurd h.symm hr
    · rintro ⟨pre, h, post, he, -⟩
      simp at he
  | cons x t ih =>
    obtain ⟨ih1, ih2⟩ := ih
    cases hx : x.validate E with
    | ok u =>
      refine ⟨by simp [Chain.processHeaders, hx, ih1], fun r hr => ?_⟩
      have e : Chain.processHeaders E (x :: t) = Chain.processHeaders E t := by simp [Chain.processHeaders, hx]
      rw [e, ih2 r hr]
      constructor
      · rintro ⟨pre, h, post, rfl, h1, h2⟩
        exact ⟨x :: pre, h, post, rfl, by simpa [hx] using h1, h2⟩
      · rintro ⟨pre, h, post, he, h1, h2⟩
        cases pre with
        | nil =>
          simp only [List.nil_append, List.cons.injEq] at he
          obtain ⟨rfl, -⟩ := he
          rw [hx] at h2; exact absurd h2.symm hr
        | cons y pre =>
          simp only [List.cons_append, List.cons.injEq] at he
          exact ⟨pre, h, post, he.2, fun z hz => h1 z (List.mem_cons_of_mem _ hz), h2⟩
    | _ =>
      refine ⟨by simp [Chain.processHeaders, hx], fun r hr => ?_⟩
      simp only [Chain.processHeaders, hx, Out.bind_err, Out.bind_panic, Out.bind_fatal]
      constructor
      · intro h; exact ⟨[], x, t, rfl, by simp, by rw [hx]; exact h⟩
      · rintro ⟨pre, h, post, he, h1, h2⟩
        cases pre with
        | nil =>
          simp only [List.nil_append, List.cons.injEq] at he
          obtain ⟨rfl, -⟩ := he
          rw [← h2, hx]
        | cons y pre =>
          simp only [List.cons_append, List.cons.injEq] at he
          have := h1 y (by simp)
          rw [← he.1, hx] at this
          cases this

end Gringo.Props
