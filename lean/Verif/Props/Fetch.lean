import Verif.Props.ExchangeWitness
/-
C142: a chain can be fetched from a node.
-/
set_option maxRecDepth 100000
namespace Gringo.Props
open Gringo.Spec Gringo.P2P

variable {E : Env}

/-- What is fixed while a client asks: the node, the client as the node knows it, what the node's world is like and what
the others do at the node meanwhile. -/
structure Served (E : Env) where
  node : Node E
  client : Sender
  world : Nat → World
  others : Nat → Node E → Node E

/-- The request is written, the node answers it once, and the client reads `m` and nothing else. -/
def Brings (u : Served E) (q : Out (Message E)) (m : Message E) : Prop :=
  ∃ asked, (q >>= Message.frame) = .ok asked ∧ ∀ n, asked.length < n →
    ∃ r written, (converse u.others u.world u.client n (some u.node) asked).effects = [.reply r] ∧
      (replyMessage r).frame = .ok written ∧ (readHandler E written).dispatched = [m]

/-- A client asks for the headers after the block with some hash, goes on from the last header that comes, and is done when
none comes. The list is what it got, the number is how often it asked. -/
inductive Fetched (u : Served E) : Bytes → List BlockHeader → Nat → Prop
  | done {h : Bytes} (hb : Brings u (sendHeaderRequest ⟨[h]⟩) (.headers ⟨[]⟩)) : Fetched u h [] 1
  | more {h h' : Bytes} {l rest : List BlockHeader} {y : BlockHeader} {k : Nat}
      (hb : Brings u (sendHeaderRequest ⟨[h]⟩) (.headers ⟨l ++ [y]⟩)) (hy : y.hash E = .ok h')
      (hr : Fetched u h' rest k) : Fetched u h (l ++ [y] ++ rest) (k + 1)

/-- The node knows the client, has the blocks, and its head is the last of them; the others leave alone what the node has.
The blocks have hashes, no two the same, and headers that can be sent. -/
structure Serves (u : Served E) (blocks : List (Block E)) (hash : Block E → Bytes) : Prop where
  known : Known u.node u.client
  others : ∀ n x, LeavesEntries x (u.others n x)
  storage : u.node.storage = listStorage blocks
  head : blocks.getLast? = some u.node.chain.head
  hashes : ∀ b ∈ blocks, HasHash b (hash b) ∧ (hash b).length = 32
  differ : (blocks.map hash).Nodup
  headers : ∀ b ∈ blocks, WellFormedHeader b.header

/-- A request that finds nothing brings the empty list. -/
theorem brings_none (P : Point → Prop) (Q : E.Prf → Prop) (hE : PointCodec E P) (hQ : PrfCodec E Q)
    (hS : SortOK E) (hmem : 1000000 * (104 + E.outputSize) ≤ E.maxAlloc) (u : Served E)
    (known : Known u.node u.client) (ho : ∀ n x, LeavesEntries x (u.others n x)) (h headHash : Bytes)
    (hh : HasHash u.node.chain.head headHash) (h32 : h.length = 32)
    (hfor : headersFor u.node.storage headHash ⟨[h]⟩ = []) :
    Brings u (sendHeaderRequest ⟨[h]⟩) (.headers ⟨[]⟩) := by
  have hd : ([h] : List Bytes).length ≤ 14 ∧ ∀ x ∈ [h], x.length = 32 := by simpa using h32
  obtain ⟨asked, h1, h2⟩ := C97_exchange_partial P Q hE hQ hS hmem [.getHeaders ⟨[h]⟩]
    (by intro q hq; rw [List.mem_singleton] at hq; subst hq; exact ⟨trivial, hd⟩)
    u.others ho u.world u.client u.node headHash hh known
  cases h1 with
  | cons h1 h1' =>
    rename_i a as
    cases h1'
    refine ⟨a, ?_, ?_⟩
    · rw [C82_queued.2.2.2.2.2 ⟨[h]⟩ hd.1, Out.bind_ok]; exact h1
    · intro n hn
      obtain ⟨answers, g1, g2, g3⟩ := h2 n (by simpa using hn)
      have hans : answers = [.headers ⟨[]⟩] := by
        generalize hes : answers.map Effect.reply = es at g2
        cases g2 with
        | getHeaders m h =>
          cases h
          rw [hfor] at hes
          match answers, hes with
          | [y], hes => rw [Effect.reply.inj (List.cons.inj hes).1]
      subst hans
      obtain ⟨written, k1, k2⟩ := g3 (by
        intro r hr; rw [List.mem_singleton] at hr; subst hr
        exact ⟨⟨by simp, by simp⟩, headers_short (E := E) (by omega) _ (by simp)⟩)
      cases k1 with
      | cons k1 k1' =>
        rename_i wr wrs
        cases k1'
        refine ⟨_, wr, by simpa using g1, k1, ?_⟩
        simp only [List.flatten_cons, List.flatten_nil, List.append_nil] at k2
        generalize (readHandler E wr).dispatched = ds at k2
        cases k2 with
        | cons k2 k2' =>
          cases k2'
          cases k2 with
          | headers m => rfl

/-- A request for the headers after the head brings the empty list. -/
theorem brings_head (P : Point → Prop) (Q : E.Prf → Prop) (hE : PointCodec E P) (hQ : PrfCodec E Q)
    (hS : SortOK E) (hmem : 1000000 * (104 + E.outputSize) ≤ E.maxAlloc) (u : Served E)
    (known : Known u.node u.client) (ho : ∀ n x, LeavesEntries x (u.others n x)) (h : Bytes)
    (hh : HasHash u.node.chain.head h) (h32 : h.length = 32) :
    Brings u (sendHeaderRequest ⟨[h]⟩) (.headers ⟨[]⟩) :=
  brings_none P Q hE hQ hS hmem u known ho h h hh h32 (by unfold headersFor; simp)

/-- A request for the headers after a block that is not the head brings the headers of the next 512 blocks. -/
theorem brings_next (P : Point → Prop) (Q : E.Prf → Prop) (hE : PointCodec E P) (hQ : PrfCodec E Q)
    (hS : SortOK E) (hmem : 1000000 * (104 + E.outputSize) ≤ E.maxAlloc) (u : Served E) (hash : Block E → Bytes)
    (pre post : List (Block E)) (x : Block E) (hne : post ≠ []) (hu : Serves u (pre ++ x :: post) hash) :
    Brings u (sendHeaderRequest ⟨[hash x]⟩) (.headers ⟨(post.take 512).map fun b => onWire b.header⟩) := by
  have hx := hu.hashes x (by simp)
  have hd : ([hash x] : List Bytes).length ≤ 14 ∧ ∀ y ∈ [hash x], y.length = 32 := by simpa using hx.2
  have hlast : u.node.chain.head ∈ post := by
    have h := hu.head
    rw [List.getLast?_append_of_ne_nil _ (by simp), List.getLast?_cons_of_ne_nil hne] at h
    exact List.mem_of_getLast? h
  have hh := hu.hashes _ (show u.node.chain.head ∈ pre ++ x :: post by simp [hlast])
  have hdiff := hu.differ
  rw [List.map_append, List.map_cons, List.nodup_append, List.nodup_cons] at hdiff
  obtain ⟨d1, ⟨d2, d3⟩, d4⟩ := hdiff
  obtain ⟨asked, h1, h2⟩ := C97_headers P Q hE hQ hS hmem ⟨[hash x]⟩ hd pre post x (hash x) hx.1
    (by
      intro b hb hbh
      have e : hash b = hash x := Out.ok.inj ((hu.hashes b (by simp [hb])).1.symm.trans hbh)
      exact d4 _ (List.mem_map_of_mem hb) _ (by simp) e)
    [] [] rfl (fun b hb => hu.headers b (by simp [hb])) u.others hu.others u.world u.client u.node hu.storage
    (hash u.node.chain.head) hh.1 (by intro e; exact d2 (e ▸ List.mem_map_of_mem hlast)) (by simp) hu.known
  refine ⟨asked, h1, fun n hn => ?_⟩
  obtain ⟨written, g1, g2, g3⟩ := h2 n hn
  exact ⟨_, written, g1, g2, g3⟩

/-- The same request brings the same answer. -/
theorem brings_one {u : Served E} {q : Out (Message E)} {m m' : Message E} (h : Brings u q m) (h' : Brings u q m') :
    m = m' := by
  obtain ⟨a, a1, a2⟩ := h
  obtain ⟨b, b1, b2⟩ := h'
  obtain rfl : a = b := Out.ok.inj (a1.symm.trans b1)
  obtain ⟨r, w, g1, g2, g3⟩ := a2 (a.length + 1) (by omega)
  obtain ⟨r', w', k1, k2, k3⟩ := b2 (a.length + 1) (by omega)
  rw [g1] at k1
  obtain rfl := Effect.reply.inj (List.cons.inj k1).1
  rw [g2] at k2
  obtain rfl := Out.ok.inj k2
  rw [g3] at k3
  exact (List.cons.inj k3).1

/-- What a client gets, and in how many requests, does not depend on anything else. -/
theorem fetched_one {u : Served E} {h : Bytes} {l l' : List BlockHeader} {k k' : Nat} (a : Fetched u h l k)
    (b : Fetched u h l' k') : l = l' ∧ k = k' := by
  induction a generalizing l' k' with
  | done ha =>
    cases b with
    | done => exact ⟨rfl, rfl⟩
    | more hb =>
      have := brings_one ha hb
      simp at this
  | more ha hy _ ih =>
    cases b with
    | done hb =>
      have := brings_one ha hb
      simp at this
    | more hb hy' hr' =>
      have e := brings_one ha hb
      simp only [Message.headers.injEq, BlockHeaders.mk.injEq] at e
      obtain ⟨rfl, e2⟩ := List.append_inj' e rfl
      obtain rfl := (List.cons.inj e2).1
      obtain rfl := Out.ok.inj (hy.symm.trans hy')
      obtain ⟨rfl, rfl⟩ := ih hr'
      exact ⟨rfl, rfl⟩

/-- **C142, headers.** A node has the blocks `pre ++ x :: post`, the last of which is its head, and a client knows `x`. A
client that asks for the headers after `x`, then for those after the last header it got, and so on, gets the headers of all
the blocks after `x` and nothing else, in order, up to the two fields that are not transmitted; it is told that there are no
more after one request for each 512 headers begun, and one. -/
theorem C142_headers_partial (P : Point → Prop) (Q : E.Prf → Prop) (hE : PointCodec E P) (hQ : PrfCodec E Q)
    (hS : SortOK E) (hmem : 1000000 * (104 + E.outputSize) ≤ E.maxAlloc) (u : Served E) (hash : Block E → Bytes)
    (pre post : List (Block E)) (x : Block E) (hu : Serves u (pre ++ x :: post) hash) (got : List BlockHeader)
    (requests : Nat) :
    Fetched u (hash x) got requests ↔
      got = post.map (fun b => onWire b.header) ∧ requests = (post.length + 511) / 512 + 1 := by
  have key : ∀ (n : Nat) (pre post : List (Block E)) (x : Block E), post.length ≤ n → Serves u (pre ++ x :: post) hash →
      Fetched u (hash x) (post.map fun b => onWire b.header) ((post.length + 511) / 512 + 1) := by
    intro n
    induction n with
    | zero =>
      intro pre post x hl hu
      obtain rfl : post = [] := List.length_eq_zero_iff.1 (by omega)
      have hx := hu.hashes x (by simp)
      have hhead : u.node.chain.head = x := by simpa using hu.head.symm
      have h0 : (([] : List (Block E)).length + 511) / 512 + 1 = 1 := by rw [List.length_nil]
      rw [h0, List.map_nil]
      exact .done (brings_head P Q hE hQ hS hmem u hu.known hu.others _ (hhead.symm ▸ hx.1) hx.2)
    | succ n ih =>
      intro pre post x hl hu
      by_cases hne : post = []
      · exact ih pre post x (by simp [hne]) hu
      · have hb := brings_next P Q hE hQ hS hmem u hash pre post x hne hu
        have htake : post.take 512 ≠ [] := by simp [hne]
        obtain ⟨l, y, hly⟩ : ∃ l y, post.take 512 = l ++ [y] :=
          ⟨_, _, (List.dropLast_append_getLast htake).symm⟩
        have hsplit : post = l ++ y :: post.drop 512 := by
          have := List.take_append_drop 512 post
          rw [hly] at this
          simpa using this.symm
        have hlen : l.length + 1 + (post.drop 512).length = post.length := by
          conv => rhs; rw [hsplit]
          simp; omega
        have hll : l.length + 1 = min 512 post.length := by
          have := congrArg List.length hly
          simpa using this.symm
        have hrec := ih (pre ++ x :: l) (post.drop 512) y (by omega) (by
          have : (pre ++ x :: l) ++ y :: post.drop 512 = pre ++ x :: post := by
            conv => rhs; rw [hsplit]
            simp
          rw [this]; exact hu)
        have hy : (onWire y.header).hash E = .ok (hash y) := by
          rw [onWire_hash]
          exact (hu.hashes y (by rw [hsplit]; simp)).1
        rw [hly, List.map_append, List.map_singleton] at hb
        have := Fetched.more hb hy hrec
        have e1 : l.map (fun b => onWire b.header) ++ [onWire y.header] ++
            (post.drop 512).map (fun b => onWire b.header) = post.map (fun b => onWire b.header) := by
          conv => rhs; rw [hsplit]
          simp
        have e2 : ((post.drop 512).length + 511) / 512 + 1 + 1 = (post.length + 511) / 512 + 1 := by omega
        rw [e1, e2] at this
        exact this
  refine ⟨fun h => fetched_one h (key _ pre post x le_rfl hu), ?_⟩
  rintro ⟨rfl, rfl⟩
  exact key _ pre post x le_rfl hu

/-- **C142, blocks.** Of the same node, a request by its hash for any of the blocks brings this block, in sorted order. So
with the hashes of the headers a client gets all of the blocks, if none of them is too long to be sent. -/
theorem C142_blocks_partial (P : Point → Prop) (Q : E.Prf → Prop) (hE : PointCodec E P) (hQ : PrfCodec E Q)
    (hS : SortOK E) (hmem : 1000000 * (104 + E.outputSize) ≤ E.maxAlloc) (u : Served E) (hash : Block E → Bytes)
    (blocks : List (Block E)) (hu : Serves u blocks hash)
    (hdel : ∀ b ∈ blocks, Deliverable P Q (.block b) ∧ ∀ v, b.bytes = .ok v → v.length ≤ 20000000)
    (b : Block E) (hb : b ∈ blocks) (h : Bytes) (hh : (onWire b.header).hash E = .ok h) :
    ∃ b', Brings u (sendBlockRequest h) (.block b') ∧ HasHash b' h ∧ b'.header = onWire b.header ∧
      SortedVersion (inputKey E) b.inputs b'.inputs ∧ SortedVersion outputKey b.outputs b'.outputs ∧
      SortedVersion (kernelKey E) b.kernels b'.kernels := by
  have hbh := hu.hashes b hb
  obtain rfl : h = hash b := Out.ok.inj (hh.symm.trans hbh.1)
  have hhead := hu.hashes _ (List.mem_of_getLast? hu.head)
  obtain ⟨asked, h1, h2⟩ := C97_block_partial P Q hE hQ hS hmem (hash b) hbh.2 blocks ⟨b, hb, hbh.1⟩ hdel
    u.others hu.others u.world u.client u.node hu.storage _ hhead.1 hu.known
  have hone : ∀ c ∈ blocks, HasHash c (hash b) → c = b := by
    intro c hc hch
    exact List.inj_on_of_nodup_map hu.differ hc hb (Out.ok.inj ((hu.hashes c hc).1.symm.trans hch))
  obtain ⟨c, hc, hch, -, written, b', g2, g3, g4, g5, g6, g7, g8⟩ := h2 (asked.length + 1) (by omega)
  obtain rfl := hone c hc hch
  refine ⟨b', ⟨asked, h1, fun n hn => ?_⟩, g4, g5, g6, g7, g8⟩
  obtain ⟨d, hd, hdh, k1, -⟩ := h2 n hn
  obtain rfl := hone d hd hdh
  exact ⟨_, written, k1, g2, g3⟩

/-- **C142, lookup.** Of a chain over a storage with blocks of the heights 0, 1, 2, …, no two with the same hash, every block
is found by its hash, by its height and by both, and with another height its hash does not find it. -/
theorem C142_lookup (c : Chain E) (blocks : List (Block E)) (hash : Block E → Bytes) (hc : Consecutive blocks)
    (hh : ∀ b ∈ blocks, HasHash b (hash b) ∧ (hash b).length = 32) (hd : (blocks.map hash).Nodup) (i : Nat) (b : Block E)
    (hb : blocks[i]? = some b) :
    c.getBlock (listStorage blocks) (hash b) = some b ∧
    c.getBlockID (listStorage blocks) { hash := some (hash b), height := none } = some b ∧
    c.getBlockID (listStorage blocks) { hash := none, height := some (UInt64.ofNat i) } = some b ∧
    ∀ j : UInt64, c.getBlockID (listStorage blocks) { hash := some (hash b), height := some j } =
      if j = UInt64.ofNat i then some b else none := by
  have hm := List.mem_of_getElem? hb
  have hbh := hc.2 i b hb
  have hone : ∀ d ∈ blocks, HasHash d (hash b) → d = b := by
    intro d hdm hdh
    exact List.inj_on_of_nodup_map hd hdm hm (Out.ok.inj ((hh d hdm).1.symm.trans hdh))
  have hheight : ∀ d ∈ blocks, d.header.height = UInt64.ofNat i → d = b := by
    intro d hdm hdh
    obtain ⟨k, hk⟩ := List.mem_iff_getElem?.1 hdm
    have hk' := hc.2 k d hk
    have hkl : k < blocks.length := (List.getElem?_eq_some_iff.1 hk).1
    have hil : i < blocks.length := (List.getElem?_eq_some_iff.1 hb).1
    have hl := hc.1
    have : k = i := by
      have e := congrArg UInt64.toNat (hk'.symm.trans hdh)
      rw [UInt64.toNat_ofNat_of_lt' (by show k < 2 ^ 64; omega), UInt64.toNat_ofNat_of_lt' (by show i < 2 ^ 64; omega)] at e
      exact e
    subst this
    rw [hk] at hb
    exact Option.some.inj hb
  have found : ∀ p : Block E → Bool, p b = true → (∀ d ∈ blocks, p d = true → d = b) → blocks.find? p = some b := by
    intro p hp hu
    cases hf : blocks.find? p with
    | none => exact absurd hp (by simpa using List.find?_eq_none.1 hf b hm)
    | some d => rw [hu d (List.mem_of_find?_eq_some hf) (List.find?_some hf)]
  have byHash : (listStorage blocks).getBlock { hash := some (hash b), height := none } = some b := by
    refine found _ ?_ ?_
    · exact decide_eq_true ⟨(hh b hm).1, trivial⟩
    · intro d hdm hp
      exact hone d hdm (of_decide_eq_true hp).1
  refine ⟨?_, byHash, ?_, ?_⟩
  · unfold Chain.getBlock
    rw [if_neg (by intro e; have := (hh b hm).2; rw [e] at this; simp at this)]
    exact byHash
  · refine found _ ?_ ?_
    · exact decide_eq_true ⟨trivial, hbh⟩
    · intro d hdm hp
      exact hheight d hdm (of_decide_eq_true hp).2
  · intro j
    split
    · rename_i hj
      refine found _ ?_ ?_
      · exact decide_eq_true ⟨(hh b hm).1, hbh.trans hj.symm⟩
      · intro d hdm hp
        exact hone d hdm (of_decide_eq_true hp).1
    · rename_i hj
      refine List.find?_eq_none.2 fun d hdm hp => hj ?_
      have hp := of_decide_eq_true hp
      have : d = b := hone d hdm hp.1
      rw [← hbh, ← this]
      exact hp.2.symm

/-- **C142 is refuted.** The node compares with the head it found when it was started. If the storage has got blocks since,
the headers after that head are not given out: a client that knows the block is told that nothing follows it. -/
theorem C142_refuted (P : Point → Prop) (Q : E.Prf → Prop) (hE : PointCodec E P) (hQ : PrfCodec E Q)
    (hS : SortOK E) (hmem : 1000000 * (104 + E.outputSize) ≤ E.maxAlloc) (u : Served E)
    (genesis : Block E) (pre post : List (Block E)) (x : Block E) (h : Bytes) (hx : HasHash x h) (h32 : h.length = 32)
    (started : u.node.chain = Chain.new genesis (listStorage (pre ++ [x])))
    (_now : u.node.storage = listStorage (pre ++ [x] ++ post)) (known : Known u.node u.client)
    (ho : ∀ n x, LeavesEntries x (u.others n x)) (got : List BlockHeader) (requests : Nat) :
    Fetched u h got requests ↔ got = [] ∧ requests = 1 := by
  have hhead : u.node.chain.head = x := by
    rw [started]
    simp [Chain.new, listStorage]
  have hd := Fetched.done (brings_head P Q hE hQ hS hmem u known ho h (hhead ▸ hx) h32)
  refine ⟨fun hf => fetched_one hf hd, ?_⟩
  rintro ⟨rfl, rfl⟩
  exact hd

/-- **C142 is refuted by the storage that exists.** A node with the SQL storage has no blocks to give, whatever blocks it has
been given: a client that knows any block is told that nothing follows it, and asked for any block the node does not answer. -/
theorem C142_refuted_sql (P : Point → Prop) (Q : E.Prf → Prop) (hE : PointCodec E P) (hQ : PrfCodec E Q)
    (hS : SortOK E) (hmem : 1000000 * (104 + E.outputSize) ≤ E.maxAlloc) (u : Served E)
    (genesis : Block E) (g : Bytes) (hg : HasHash genesis g) (history : List (ChainCall E))
    (started : u.node.chain = afterCalls (Chain.new genesis (sqlStorage E)) (history.map fun x => (sqlStorage E, x)))
    (storage : u.node.storage = sqlStorage E) (known : Known u.node u.client)
    (ho : ∀ n x, LeavesEntries x (u.others n x)) (h : Bytes) (h32 : h.length = 32) :
    (∀ got requests, Fetched u h got requests ↔ got = [] ∧ requests = 1) ∧
    ∀ m, ¬ Brings u (sendBlockRequest h) m := by
  have hhead : u.node.chain.head = genesis := by
    rw [started, afterCalls_eq]
    rfl
  have hfor : headersFor u.node.storage g ⟨[h]⟩ = [] := by
    rw [storage]
    unfold headersFor sqlStorage
    split
    · rfl
    · split <;> rfl
  constructor
  · intro got requests
    have hd := Fetched.done (brings_none P Q hE hQ hS hmem u known ho h g (hhead ▸ hg) h32 hfor)
    refine ⟨fun hf => fetched_one hf hd, ?_⟩
    rintro ⟨rfl, rfl⟩
    exact hd
  · rintro m ⟨asked, a1, a2⟩
    obtain ⟨as, h1, h2⟩ := C97_exchange_partial P Q hE hQ hS hmem [.getBlock ⟨h⟩]
      (by intro q hq; rw [List.mem_singleton] at hq; subst hq; exact ⟨trivial, h32⟩)
      u.others ho u.world u.client u.node g (hhead ▸ hg) known
    cases h1 with
    | cons h1 h1' =>
      rename_i a as
      cases h1'
      rw [C82_queued.2.2.2.2.1 h h32, Out.bind_ok, h1] at a1
      obtain rfl := Out.ok.inj a1
      obtain ⟨answers, g1, g2, -⟩ := h2 (a.length + 1) (by simp)
      obtain ⟨r, w, k1, -⟩ := a2 (a.length + 1) (by omega)
      simp only [List.flatten_cons, List.flatten_nil, List.append_nil] at g1
      rw [g1] at k1
      rw [k1] at g2
      cases g2 with
      | getBlock m b hb h => rw [storage] at hb; cases hb
      | getBlockUnknown m hb h => cases h

/-- A chain: blocks with different proofs. -/
def linkBlock (k : Nat) : Block Toy.env :=
  { sampleBlock with header := { sampleHeader with
      height := UInt64.ofNat k
      pow := { edgeBits := 29, nonces := (List.range 42).map fun i => UInt32.ofNat (i * 12345678 + k) } } }

def linkHash (b : Block Toy.env) : Bytes := match b.hash with | .ok h => h | _ => []

/-- The node with the blocks, started with them. -/
def linkServed (blocks : List (Block Toy.env)) (w : Nat → World) : Served Toy.env where
  node := { toyNode with storage := listStorage blocks, chain := Chain.new (testnet1 Toy.env) (listStorage blocks) }
  client := toySender
  world := w
  others _ x := x

theorem link_hashes : ∀ b ∈ [linkBlock 0, linkBlock 1, linkBlock 2], HasHash b (linkHash b) ∧ (linkHash b).length = 32 := by
  have h : ([linkBlock 0, linkBlock 1, linkBlock 2].all fun b => match b.hash with
    | .ok h => h.length == 32 | _ => false) = true := by decide +kernel
  intro b hb
  have hb := List.all_eq_true.1 h b hb
  unfold HasHash linkHash
  cases hs : b.hash with
  | ok x => rw [hs] at hb; exact ⟨rfl, by simpa using hb⟩
  | _ => rw [hs] at hb; simp at hb

theorem three_differ {α : Type} {a b c : α} (h1 : a ≠ b) (h2 : a ≠ c) (h3 : b ≠ c) : [a, b, c].Nodup := by
  simp [h1, h2, h3]

theorem link_apart : linkHash (linkBlock 0) ≠ linkHash (linkBlock 1) ∧ linkHash (linkBlock 0) ≠ linkHash (linkBlock 2) ∧
    linkHash (linkBlock 1) ≠ linkHash (linkBlock 2) := by
  decide +kernel

theorem link_differ : ([linkBlock 0, linkBlock 1, linkBlock 2].map linkHash).Nodup := by
  rw [List.map_cons, List.map_cons, List.map_cons, List.map_nil]
  exact three_differ link_apart.1 link_apart.2.1 link_apart.2.2

theorem link_pow (k : Nat) (hk : k < 3) : Packable (linkBlock k).header.pow := by
  refine ⟨?_, ?_, by simp [linkBlock], ?_⟩
  · show (0 : Nat) < (29 : UInt8).toNat; decide
  · show (29 : UInt8).toNat ≤ 64; decide
  interval_cases k <;> decide +kernel

theorem link_wf (k : Nat) (hk : k < 3) : WellFormedHeader (linkBlock k).header :=
  { sampleHeader_wf with pow := link_pow k hk }

theorem link_serves (w : Nat → World) :
    Serves (linkServed [linkBlock 0, linkBlock 1, linkBlock 2] w) [linkBlock 0, linkBlock 1, linkBlock 2] linkHash where
  known := toy_known
  others _ _ := ⟨rfl, rfl, rfl, fun _ h => h⟩
  storage := rfl
  head := rfl
  hashes := link_hashes
  differ := link_differ
  headers := by
    intro b hb
    simp only [List.mem_cons, List.not_mem_nil, or_false] at hb
    rcases hb with rfl | rfl | rfl
    · exact link_wf 0 (by omega)
    · exact link_wf 1 (by omega)
    · exact link_wf 2 (by omega)

/-- `C142_headers_partial`: who knows the first of three blocks gets the headers of the two others, in two requests. -/
example (w : Nat → World) :
    Fetched (linkServed [linkBlock 0, linkBlock 1, linkBlock 2] w) (linkHash (linkBlock 0))
      [onWire (linkBlock 1).header, onWire (linkBlock 2).header] 2 :=
  (C142_headers_partial Toy.OKPoint (fun _ => True) Toy.pointCodec Toy.prfCodec Toy.sortOK (by norm_num) _ _ []
    [linkBlock 1, linkBlock 2] (linkBlock 0) (link_serves w) _ _).2 ⟨rfl, rfl⟩

theorem link_deliverable : ∀ b ∈ [linkBlock 0, linkBlock 1, linkBlock 2],
    Deliverable Toy.OKPoint (fun _ => True) (.block b) ∧ ∀ v, b.bytes = .ok v → v.length ≤ 20000000 := by
  have key : ([linkBlock 0, linkBlock 1, linkBlock 2].all fun b => match b.bytes with
      | .ok v => decide (v.length ≤ 20000000) | _ => true) = true := by
    decide +kernel
  intro b hb
  constructor
  · obtain ⟨-, hi, ho, hk, n1, n2, n3⟩ := sampleBlock_deliverable
    simp only [List.mem_cons, List.not_mem_nil, or_false] at hb
    rcases hb with rfl | rfl | rfl
    · exact ⟨link_wf 0 (by omega), hi, ho, hk, n1, n2, n3⟩
    · exact ⟨link_wf 1 (by omega), hi, ho, hk, n1, n2, n3⟩
    · exact ⟨link_wf 2 (by omega), hi, ho, hk, n1, n2, n3⟩
  · intro v hv
    have := List.all_eq_true.1 key b hb
    rw [hv] at this
    simpa using this

/-- `C142_blocks_partial`: the second of the blocks. -/
example (w : Nat → World) : ∃ b', Brings (linkServed [linkBlock 0, linkBlock 1, linkBlock 2] w)
    (sendBlockRequest (linkHash (linkBlock 1))) (.block b') ∧ b'.header = onWire (linkBlock 1).header := by
  have hs := link_serves w
  obtain ⟨b', h1, -, h2, -⟩ := C142_blocks_partial Toy.OKPoint (fun _ => True) Toy.pointCodec Toy.prfCodec Toy.sortOK
    (by norm_num) _ _ _ hs link_deliverable (linkBlock 1) (by simp) (linkHash (linkBlock 1))
    (hs.hashes (linkBlock 1) (by simp)).1
  exact ⟨b', h1, h2⟩

/-- `C142_lookup`: the third of the blocks. -/
example (c : Chain Toy.env) : c.getBlockID (listStorage [linkBlock 0, linkBlock 1, linkBlock 2])
    { hash := none, height := some 2 } = some (linkBlock 2) :=
  (C142_lookup c _ linkHash
    ⟨by simp, by
      intro i b hb
      match i, hb with
      | 0, hb | 1, hb | 2, hb => cases hb; rfl⟩
    link_hashes link_differ 2 (linkBlock 2) rfl).2.2.1

/-- `C142_refuted`: two blocks were stored after the start. -/
example (w : Nat → World) : Fetched
    { linkServed [linkBlock 0] w with
      node := { (linkServed [linkBlock 0] w).node with storage := listStorage [linkBlock 0, linkBlock 1, linkBlock 2] } }
    (linkHash (linkBlock 0)) [] 1 :=
  (C142_refuted Toy.OKPoint (fun _ => True) Toy.pointCodec Toy.prfCodec Toy.sortOK (by norm_num) _ (testnet1 Toy.env) []
    [linkBlock 1, linkBlock 2] (linkBlock 0) _ ((link_serves w).hashes _ (by simp)).1
    ((link_serves w).hashes _ (by simp)).2 rfl rfl toy_known (fun _ _ => ⟨rfl, rfl, rfl, fun _ h => h⟩) _ _).2 ⟨rfl, rfl⟩

/-- `C142_refuted_sql`: after being given the three blocks. -/
example (w : Nat → World) : Fetched { node := toyNode, client := toySender, world := w, others := fun _ x => x }
    (linkHash (linkBlock 0)) [] 1 :=
  ((C142_refuted_sql Toy.OKPoint (fun _ => True) Toy.pointCodec Toy.prfCodec Toy.sortOK (by norm_num) _ (testnet1 Toy.env)
    _ (genesis_hash Toy.env .testnet1) [.processBlock (linkBlock 0), .processBlock (linkBlock 1)]
    (by rw [afterCalls_eq]; rfl) rfl toy_known (fun _ _ => ⟨rfl, rfl, rfl, fun _ h => h⟩) _
    ((link_serves w).hashes _ (by simp)).2).1 _ _).2 ⟨rfl, rfl⟩

end Gringo.Props
