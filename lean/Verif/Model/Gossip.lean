import Mathlib.Combinatorics.SimpleGraph.Basic
import Mathlib.Logic.Function.Basic
import Verif.Model.Program
/-
Model of a network of nodes that are connected with each other and relay a block: each of them runs `ProcessMessage`,
p2p/sync.go:103-221, and the goroutines of `PropagateBlock`, p2p/pool.go:183-197.

Simplifications: there is one block; a node is known to all others by one address, which is also its remote address; what
is sent arrives whole or is lost (Model/Program.lean has the bytes and the handlers of the connections). All else that
happens in a node, other messages among it, is one kind of step.
-/
namespace Gringo.Gossip
open Gringo.P2P

variable {E : Env} {ι : Type} [DecidableEq ι]

/-- The addresses of the nodes, and the numbers of their connections: `conn j i` is the one to `i` in node `j`. -/
structure Setup (ι : Type) where
  name : ι → String
  conn : ι → ι → Nat

/-- The network. A copy of the block carries its route, the nodes it has come through, the latest first; this is not in
the code. -/
structure State (ι : Type) (E : Env) where
  node : ι → Node E
  /-- the goroutines of `PropagateBlock` and the copies for which they were started; they are those of the first node of
  the route -/
  jobs : List (List ι × Program.Job E)
  /-- the copies on their way to the first node of the route -/
  flying : List (List ι)

/-- What happens. -/
inductive Event (ι : Type) where
  /-- a copy of the block reaches a node -/
  | deliver (j : ι)
  /-- a goroutine of `PropagateBlock` does its next step -/
  | look
  /-- a copy gets lost -/
  | lost
  /-- all else -/
  | other
deriving DecidableEq

/-- Not in the code: the nodes that a copy of the block reached, in this order. -/
def receivers (es : List (Event ι)) : List ι := es.filterMap fun | .deliver j => some j | _ => none

/-- The record says that the peer does not have the block: p2p/pool.go:190. -/
def Behind (b : Block E) (i : PeerInfo) : Prop :=
  i.height < b.header.height ∨ i.totalDifficulty < b.header.totalDifficulty

/-- The record for the address says that the peer has the block. -/
def Informed (b : Block E) (n : Node E) (a : String) : Prop := ∃ i, n.table.find a = some i ∧ ¬ Behind b i

/-- The node is connected to neighbours only; `ConnectedPeers` is a map. -/
def Wired (u : Setup ι) (G : SimpleGraph ι) (j : ι) (n : Node E) : Prop :=
  n.online.Nodup ∧ ∀ a ∈ n.online, ∃ k, G.Adj j k ∧ a = u.name k

/-- p2p/sync.go:103-221 `ProcessMessage` in node `j` of the block from node `i`. -/
def receive (u : Setup ι) (b : Block E) (w : World) (n : Node E) (i j : ι) : Handled E :=
  processMessage w n { addr := u.name i, conn := u.conn j i, remote := u.name i } (.block b)

/-- The steps. -/
inductive Step (u : Setup ι) (G : SimpleGraph ι) (b : Block E) : State ι E → Event ι → State ι E → Prop
  /-- p2p/sync.go:188-211: the block is handled, and goroutines are started -/
  | deliver {s : State ι E} (l r : List (List ι)) (i j : ι) (route : List ι) (w : World)
      (hw : Program.Real w) (hf : s.flying = l ++ (j :: i :: route) :: r)
      (hd : (receive u b w (s.node j) i j).ended = .done) :
      Step u G b s (.deliver j)
        { node := Function.update s.node j (receive u b w (s.node j) i j).node
          jobs := s.jobs ++ (Program.started (s.node j).online (receive u b w (s.node j) i j).node.chain (.block b)).map
            fun job => (j :: i :: route, job)
          flying := l ++ r }
  /-- p2p/sync.go:188-211: the process ends or the handler comes to wait for itself -/
  | fails {s : State ι E} (l r : List (List ι)) (i j : ι) (route : List ι) (w : World)
      (hw : Program.Real w) (hf : s.flying = l ++ (j :: i :: route) :: r)
      (hd : (receive u b w (s.node j) i j).ended ≠ .done) :
      Step u G b s (.deliver j) { s with flying := l ++ r }
  /-- p2p/pool.go:190-191: a goroutine of `PropagateBlock` does its next read -/
  | look {s : State ι E} (l r : List (List ι × Program.Job E)) (j : ι) (route : List ι) (job : Program.Job E) (i : PeerInfo)
      (st : Relay.Stage) (hj : s.jobs = l ++ (j :: route, job) :: r) (hi : (s.node j).table.find job.addr = some i)
      (hn : job.next i = some st) (hst : ∀ c, st ≠ .sent c) :
      Step u G b s .look { s with jobs := l ++ (j :: route, { job with stage := st }) :: r }
  /-- p2p/pool.go:191-192: a goroutine of `PropagateBlock` calls `SendBlock` -/
  | send {s : State ι E} (l r : List (List ι × Program.Job E)) (j k : ι) (route : List ι) (job : Program.Job E)
      (i : PeerInfo) (c : Nat) (hj : s.jobs = l ++ (j :: route, job) :: r)
      (hi : (s.node j).table.find job.addr = some i) (hn : job.next i = some (.sent c)) (hk : job.addr = u.name k) :
      Step u G b s .look
        { s with jobs := l ++ (j :: route, { job with stage := .sent c }) :: r, flying := s.flying ++ [k :: j :: route] }
  /-- a connection breaks -/
  | lost {s : State ι E} (l r : List (List ι)) (p : List ι) (hf : s.flying = l ++ p :: r) :
      Step u G b s .lost { s with flying := l ++ r }
  /-- anything else happens in a node: it does not come to think that a peer has lost the block, and connects to
  neighbours only -/
  | other {s : State ι E} (j : ι) (n : Node E) (hk : ∀ a, Informed b (s.node j) a → Informed b n a) (hw : Wired u G j n) :
      Step u G b s .other { s with node := Function.update s.node j n }

/-- Runs of the network. -/
inductive Run (u : Setup ι) (G : SimpleGraph ι) (b : Block E) : State ι E → List (Event ι) → State ι E → Prop
  | refl {s : State ι E} : Run u G b s [] s
  | next {s t t' : State ι E} {es : List (Event ι)} {e : Event ι} (h : Run u G b s es t) (hs : Step u G b t e t') :
      Run u G b s (es ++ [e]) t'

end Gringo.Gossip
