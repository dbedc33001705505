import Verif.Model.Connect
import Verif.Spec.Chain
/-
What a connection should see: the answers to its requests.
-/
namespace Gringo.Spec
open Gringo.P2P

/-- What the rest of the program may do to a node while a connection is served: anything to its tables except
removing entries. -/
def LeavesEntries {E : Env} (a b : Node E) : Prop :=
  b.chain = a.chain ∧ b.storage = a.storage ∧ b.mempool = a.mempool ∧
    ∀ x ∈ a.table.map (·.1), x ∈ b.table.map (·.1)

/-- The headers to send for a locator, see C50: of the first 14 hashes the first one that is the head's or known
to the storage decides. -/
def headersFor {E : Env} (st : Storage E) (headHash : Bytes) (loc : Locator) : List BlockHeader :=
  match (loc.hashes.take 14).find?
      (fun h => decide (h = headHash ∨ st.from { hash := some h, height := none } 513 ≠ [])) with
  | none => []
  | some h => if h = headHash then [] else ((st.from { hash := some h, height := none } 513).drop 1).map (·.header)

/-- `Answered c st headHash ms es`: `es` is what a node with chain `c`, storage `st` and head hash `headHash` sends
for the messages `ms`: one answer per request, in the order of the requests, none for a block that is not
stored; a block may be relayed; nothing else. -/
inductive Answered {E : Env} (c : Chain E) (st : Storage E) (headHash : Bytes) :
    List (Message E) → List (Effect E) → Prop
  | nil : Answered c st headHash [] []
  | ping (m : Ping) {ms es} (h : Answered c st headHash ms es) :
      Answered c st headHash (.ping m :: ms) (.reply (.pong ⟨c.totalDifficulty, c.height⟩) :: es)
  | getPeerAddrs (m : GetPeerAddrs) (p : PeerAddrs) (hp : p.peers.length ≤ 256) {ms es}
      (h : Answered c st headHash ms es) :
      Answered c st headHash (.getPeerAddrs m :: ms) (.reply (.peerAddrs p) :: es)
  | getHeaders (m : Locator) {ms es} (h : Answered c st headHash ms es) :
      Answered c st headHash (.getHeaders m :: ms) (.reply (.headers ⟨headersFor st headHash m⟩) :: es)
  | getBlock (m : GetBlock) (b : Block E) (hb : st.getBlock ⟨some m.hash, none⟩ = some b) {ms es}
      (h : Answered c st headHash ms es) :
      Answered c st headHash (.getBlock m :: ms) (.reply (.block b) :: es)
  | getBlockUnknown (m : GetBlock) (hb : m.hash = [] ∨ st.getBlock ⟨some m.hash, none⟩ = none) {ms es}
      (h : Answered c st headHash ms es) : Answered c st headHash (.getBlock m :: ms) es
  | pong (m : Pong) {ms es} (h : Answered c st headHash ms es) : Answered c st headHash (.pong m :: ms) es
  | peerAddrs (m : PeerAddrs) {ms es} (h : Answered c st headHash ms es) :
      Answered c st headHash (.peerAddrs m :: ms) es
  | header (m : BlockHeader) {ms es} (h : Answered c st headHash ms es) :
      Answered c st headHash (.header m :: ms) es
  | headers (m : BlockHeaders) {ms es} (h : Answered c st headHash ms es) :
      Answered c st headHash (.headers m :: ms) es
  | transaction (m : Transaction E) {ms es} (h : Answered c st headHash ms es) :
      Answered c st headHash (.transaction m :: ms) es
  | block (b : Block E) (relays : List (Effect E)) (hr : ∀ x ∈ relays, ∃ a n, x = .relay a n b) {ms es}
      (h : Answered c st headHash ms es) : Answered c st headHash (.block b :: ms) (relays ++ es)

/-- Messages that ask or tell, but are neither blocks, lists of headers nor transactions. -/
def Plain {E : Env} : Message E → Prop
  | .headers _ | .block _ | .transaction _ => False
  | _ => True

/-- A history of messages handled by a node: what the call sees of the world, the sender and the message, one
after the other, from any number of connections. -/
abbrev History (E : Env) := List (World × Sender × Message E)

/-- The node after a history. -/
def afterMessages {E : Env} (node : Node E) (h : History E) : Node E :=
  h.foldl (fun n e => (processMessage e.1 n e.2.1 e.2.2).node) node

end Gringo.Spec
