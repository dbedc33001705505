import Verif.Model.Peer
import Verif.Spec.Blocks
/-
Which messages can be expected to arrive at the other end of a connection, and as what.
-/
namespace Gringo.Spec
open Gringo.P2P

/-- `ip` is an IPv4 address, in its 4-byte form or as `::ffff:a.b.c.d`; `ip4` is the 4-byte form. -/
def SameIPv4 (ip ip4 : Bytes) : Prop :=
  ip4.length = 4 ∧ (ip = ip4 ∨ ip = [0, 0, 0, 0, 0, 0, 0, 0, 0, 0, 255, 255] ++ ip4)

/-- The same IPv4 end point, in 4-byte form. -/
def SameEndpoint (a b : TCPAddr) : Prop := SameIPv4 a.ip b.ip ∧ b.port = a.port

/-- A port is a 16-bit number. -/
def PortOK (a : TCPAddr) : Prop := 0 ≤ a.port ∧ a.port < 65536

/-- The messages for which delivery is claimed. `P` and `Q` say which points and range proofs the external
serialisation is trusted with. What is left out: IPv6 addresses and transactions with inputs. -/
def Deliverable {E : Env} (P : Point → Prop) (Q : E.Prf → Prop) : Message E → Prop
  | .ping _ | .pong _ | .getPeerAddrs _ => True
  | .peerAddrs m => m.peers.length ≤ 256 ∧ ∀ a ∈ m.peers, PortOK a ∧ ∃ ip4, SameIPv4 a.ip ip4
  | .getHeaders m => m.hashes.length ≤ 14 ∧ ∀ x ∈ m.hashes, x.length = 32
  | .header m => WellFormedHeader m
  | .headers m => m.headers.length ≤ 512 ∧ ∀ h ∈ m.headers, WellFormedHeader h
  | .getBlock m => m.hash.length = 32
  | .block m => WellFormedHeader m.header ∧ InputsOK m.inputs ∧ OutputsOK P Q m.outputs ∧ KernelsOK P m.kernels ∧
      m.inputs.length ≤ 1000000 ∧ m.outputs.length ≤ 1000000 ∧ m.kernels.length ≤ 1000000
  | .transaction m => m.kernelOffset.length = 32 ∧ m.inputs = [] ∧ OutputsOK P Q m.outputs ∧
      KernelsOK P m.kernels ∧ m.outputs.length ≤ 1000000 ∧ m.kernels.length ≤ 1000000

/-- `ArrivesAs m m'`: `m'` is what the other side should get to see of `m`. Requests and answers arrive as they
are; headers lose the two fields that are not transmitted; the lists of blocks and transactions arrive in hash
order; addresses arrive in 4-byte form. -/
inductive ArrivesAs (E : Env) : Message E → Message E → Prop
  | ping (m : Ping) : ArrivesAs E (.ping m) (.ping m)
  | pong (m : Pong) : ArrivesAs E (.pong m) (.pong m)
  | getPeerAddrs (m : GetPeerAddrs) : ArrivesAs E (.getPeerAddrs m) (.getPeerAddrs m)
  | peerAddrs (m m' : PeerAddrs) (h : List.Forall₂ SameEndpoint m.peers m'.peers) :
      ArrivesAs E (.peerAddrs m) (.peerAddrs m')
  | getHeaders (m : Locator) : ArrivesAs E (.getHeaders m) (.getHeaders m)
  | header (m : BlockHeader) : ArrivesAs E (.header m) (.header (onWire m))
  | headers (m : BlockHeaders) : ArrivesAs E (.headers m) (.headers ⟨m.headers.map onWire⟩)
  | getBlock (m : GetBlock) : ArrivesAs E (.getBlock m) (.getBlock m)
  | block (m m' : Block E) (hh : m'.header = onWire m.header) (hi : SortedVersion (inputKey E) m.inputs m'.inputs)
      (ho : SortedVersion outputKey m.outputs m'.outputs) (hk : SortedVersion (kernelKey E) m.kernels m'.kernels) :
      ArrivesAs E (.block m) (.block m')
  | transaction (m m' : Transaction E) (h : m'.kernelOffset = m.kernelOffset)
      (hi : SortedVersion (inputKey E) m.inputs m'.inputs)
      (ho : SortedVersion outputKey m.outputs m'.outputs) (hk : SortedVersion (kernelKey E) m.kernels m'.kernels) :
      ArrivesAs E (.transaction m) (.transaction m')

end Gringo.Spec
