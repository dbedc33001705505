import Verif.Model.Peer
/-
Specification of the message stream between two peers.
-/
namespace Gringo.Spec
open Gringo.P2P

/-- A frame: the magic 0x54 0x34, the type, the length of the body as 8 bytes, the body. -/
def frameBytes (type : UInt8) (body : Bytes) : Bytes :=
  [0x54, 0x34, type] ++ be 8 body.length ++ body

/-- The message a frame of some type with some body stands for: the type number selects the decoder, which
has to accept the body (it may leave bytes over). Types 12 and 13 (compact blocks) are accepted but stand
for no message. All other types are unsupported. -/
inductive Carries (E : Env) : UInt8 → Bytes → Option (Message E) → Prop
  | ping (body r : Bytes) (m : Ping) (h : Ping.read body = (.ok m, r)) : Carries E 3 body (some (.ping m))
  | pong (body r : Bytes) (m : Ping) (h : Ping.read body = (.ok m, r)) : Carries E 4 body (some (.pong m))
  | getPeerAddrs (body r : Bytes) (m : GetPeerAddrs) (h : GetPeerAddrs.read body = (.ok m, r)) :
      Carries E 5 body (some (.getPeerAddrs m))
  | peerAddrs (body r : Bytes) (m : PeerAddrs) (h : PeerAddrs.read body = (.ok m, r)) :
      Carries E 6 body (some (.peerAddrs m))
  | getHeaders (body r : Bytes) (m : Locator) (h : Locator.read body = (.ok m, r)) :
      Carries E 7 body (some (.getHeaders m))
  | header (body r : Bytes) (m : BlockHeader) (h : BlockHeader.read E body = (.ok m, r)) :
      Carries E 8 body (some (.header m))
  | headers (body r : Bytes) (m : BlockHeaders) (h : BlockHeaders.read E body = (.ok m, r)) :
      Carries E 9 body (some (.headers m))
  | getBlock (body r : Bytes) (m : GetBlock) (h : GetBlock.read body = (.ok m, r)) :
      Carries E 10 body (some (.getBlock m))
  | block (body r : Bytes) (m : Block E) (h : Block.read E body = (.ok m, r)) :
      Carries E 11 body (some (.block m))
  | getCompactBlock (body : Bytes) : Carries E 12 body none
  | compactBlock (body r : Bytes) (m : CompactBlock E) (h : CompactBlock.read E body = (.ok m, r)) :
      Carries E 13 body none
  | transaction (body r : Bytes) (m : Transaction E) (h : Transaction.read E body = (.ok m, r)) :
      Carries E 15 body (some (.transaction m))

/-- A well-formed frame: at most 20 000 000 bytes of body, which decode. -/
structure GoodFrame (E : Env) where
  type : UInt8
  body : Bytes
  msg : Option (Message E)
  size : body.length ≤ 20000000
  carries : Carries E type body msg

/-- The bytes of a sequence of frames. -/
def streamOf {E : Env} (fs : List (GoodFrame E)) : Bytes := fs.flatMap fun f => frameBytes f.type f.body

/-- The messages of a sequence of frames. -/
def messagesOf {E : Env} (fs : List (GoodFrame E)) : List (Message E) := fs.flatMap fun f => f.msg.toList

/-- The faults at which the loop has to stop. -/
inductive Fault (E : Env) : Bytes → Prop
  /-- the stream ends within a header -/
  | ends (s : Bytes) (h : s.length < 11) : Fault E s
  /-- wrong magic -/
  | magic (a b : UInt8) (s : Bytes) (h : ¬ (a = 0x54 ∧ b = 0x34)) : Fault E (a :: b :: s)
  /-- announced length above 20 000 000 -/
  | oversized (t : UInt8) (len : Nat) (s : Bytes) (h : 20000000 < len) (h64 : len < 2 ^ 64) :
      Fault E ([0x54, 0x34, t] ++ be 8 len ++ s)
  /-- the stream ends within the body -/
  | truncated (t : UInt8) (len : Nat) (s : Bytes) (h : s.length < len) (h64 : len < 2 ^ 64) :
      Fault E ([0x54, 0x34, t] ++ be 8 len ++ s)
  /-- the type is unsupported or the body does not decode -/
  | undecodable (t : UInt8) (body s : Bytes) (h64 : body.length < 2 ^ 64) (h : ∀ m, ¬ Carries E t body m) :
      Fault E (frameBytes t body ++ s)

end Gringo.Spec
