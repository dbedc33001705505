import Verif.Model.Pool
/-
Specification of the peer table.
-/
namespace Gringo.Spec
open Gringo.P2P

/-- No address occurs twice. -/
def UniqueKeys (t : Table) : Prop := (t.map (·.1)).Nodup

/-- An iteration order of a table. -/
def OrderOf (order t : Table) : Prop := order.Perm t

/-- An entry that may be told to others: not banned, not failed, with all requested capabilities. -/
def Shareable (caps : UInt32) (i : PeerInfo) : Prop :=
  i.status ≠ .banned ∧ i.status ≠ .failedConn ∧ i.capabilities &&& caps = caps

instance (caps : UInt32) (i : PeerInfo) : Decidable (Shareable caps i) := by unfold Shareable; infer_instance

/-- The addresses of all shareable entries that resolve. -/
def shareableAddrs (resolve : String → Option TCPAddr) (t : Table) (caps : UInt32) : List TCPAddr :=
  (t.filter fun e => decide (Shareable caps e.2)).filterMap fun e => resolve e.1

/-- An address that may enter the table: it resolves, to a port that is not 0 and to no multicast address
(224.0.0.0/4, whether written in 4 or 16 bytes, or ff00::/8). -/
def Admissible (resolve : String → Option TCPAddr) (addr : String) : Prop :=
  ∃ a, resolve addr = some a ∧ a.port ≠ 0 ∧
    ¬ (∃ x y z v : UInt8, (a.ip = [x, y, z, v] ∨ a.ip = [0, 0, 0, 0, 0, 0, 0, 0, 0, 0, 255, 255, x, y, z, v]) ∧
      224 ≤ x.toNat ∧ x.toNat < 240) ∧
    ¬ (∃ rest : Bytes, rest.length = 15 ∧ a.ip = 255 :: rest)

/-- The entry of a peer of which only the address is known: it was never connected, last on January 1, 1970. -/
def blankEntry : PeerInfo where
  status := .new
  peer := none
  protocolVersion := 0
  height := 0
  totalDifficulty := 0
  capabilities := 0
  lastConn := ⟨62135596800, 0⟩

/-- A table entry that can be dialled. -/
def Dialable (i : PeerInfo) : Prop := i.status = .new ∨ i.status = .disconnected ∨ i.status = .failedConn

end Gringo.Spec
