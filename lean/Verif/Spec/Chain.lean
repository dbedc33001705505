import Verif.Model.Chain
/-
Specification of block acceptance and of a well-behaved storage.
-/
namespace Gringo.Spec

/-- One instant is strictly later than another. -/
def Later (a b : Time) : Prop := b.sec < a.sec ∨ (a.sec = b.sec ∧ b.nsec < a.nsec)

/-- The lowest height that takes part in the difficulty rule for a block of some height: 71 below, but not
below 0. -/
def windowStart (height : Nat) : Nat := height - 71

/-- `b` may follow the stored block `p`: it is later, its total difficulty is the parent's plus the
difficulty of the parent's proof (mod 2^64), and its own difficulty is at least the one prescribed for the
`window` of stored blocks. -/
def Follows (E : Env) (b p : Block E) (window : List (Block E)) : Prop :=
  Later b.header.timestamp p.header.timestamp ∧
  (∃ d : UInt64, p.header.pow.toDifficulty E = .ok d ∧
    b.header.totalDifficulty.toNat = (p.header.totalDifficulty.toNat + d.toNat) % 2 ^ 64) ∧
  ∃ nd : UInt64, nextDifficulty (window.map (·.header)) = .ok nd ∧ nd.toNat ≤ b.header.difficulty.toNat

/-- A block has a given hash. -/
def HasHash {E : Env} (b : Block E) (h : Bytes) : Prop := b.hash = .ok h

instance {E : Env} (b : Block E) (h : Bytes) : Decidable (HasHash b h) :=
  inferInstanceAs (Decidable (_ = _))

/-- A block matches an id: it has the hash, if one is given, and the height, if one is given. -/
def Matches {E : Env} (id : BlockID) (b : Block E) : Prop :=
  (match id.hash with | some h => HasHash b h | none => True) ∧
  (match id.height with | some n => b.header.height = n | none => True)

instance {E : Env} (id : BlockID) (b : Block E) : Decidable (Matches id b) := by
  unfold Matches
  cases id.hash <;> cases id.height <;> simp only <;> infer_instance

/-- A storage that does what chain/storage.go says, holding a list of blocks from genesis to head. -/
def listStorage {E : Env} (blocks : List (Block E)) : Storage E where
  getBlock id := blocks.find? fun b => decide (Matches id b)
  getLastBlock := blocks.getLast?
  «from» id limit := (blocks.dropWhile fun b => decide (¬ Matches id b)).take limit

/-- The blocks have the heights 0, 1, 2, … -/
def Consecutive {E : Env} (blocks : List (Block E)) : Prop :=
  blocks.length < 2 ^ 64 ∧ ∀ i b, blocks[i]? = some b → b.header.height = UInt64.ofNat i

/-- What a user can call on a chain. -/
inductive ChainCall (E : Env) where
  | processBlock (b : Block E)
  | processHeaders (hs : List BlockHeader)
  | getBlock (hash : Bytes)
  | getBlockID (id : BlockID)
  | getBlockHeaders (loc : Locator)
  | validate

/-- The chain after a call. The getters and validation return no new chain. -/
def afterCall {E : Env} (c : Chain E) (st : Storage E) : ChainCall E → Chain E
  | .processBlock b => (c.processBlock st b).2
  | _ => c

/-- The chain after a history of calls, each with the storage as it is at that moment. -/
def afterCalls {E : Env} (c : Chain E) (history : List (Storage E × ChainCall E)) : Chain E :=
  history.foldl (fun c x => afterCall c x.1 x.2) c

/-- A walk along the `Previous` links from `b` to `z`, through blocks found in the storage, all of which
(the first included) fail validation. -/
inductive InvalidWalk {E : Env} (st : Storage E) : Block E → Block E → Prop
  | here (b : Block E) (e : String) (h : b.validate = .err e) : InvalidWalk st b b
  | back (b p z : Block E) (e : String) (h : b.validate = .err e)
      (hp : st.getBlock { hash := some b.header.previous, height := none } = some p)
      (hz : InvalidWalk st p z) : InvalidWalk st b z

/-- Each header but the first names the one before as its predecessor and is one higher. -/
def HeaderChain (E : Env) : List BlockHeader → Prop
  | a :: b :: t => a.hash E = .ok b.previous ∧ b.height.toNat = a.height.toNat + 1 ∧ HeaderChain E (b :: t)
  | _ => True

end Gringo.Spec
