import Verif.Go.Bufio
import Verif.Model.Messages
/-
Model of p2p/protocol.go:32-53 and p2p/messages.go:48-57 on a connection that may break: what it has been given,
what is returned.
-/
namespace Gringo.P2P

/-- p2p/messages.go:48-57 `(*Header).Write`: three writes, up to the first error. -/
def Header.writeTo (h : Header) (w : BufWriter) : BufWriter :=
  let w := (w.write h.magic).1
  if w.failed then w
  else
    let w := (w.write [h.type]).1
    if w.failed then w
    else (w.write (be64 h.len)).1

/-- The result of `WriteMessage` on a connection. -/
structure Written where
  /-- what the connection has taken -/
  got : Bytes
  /-- the connection is going to take so many more bytes -/
  left : Nat
  /-- the returned count -/
  count : UInt64
  /-- the returned error is nil -/
  ok : Bool

/-- p2p/protocol.go:32-53 `WriteMessage` on a body and a type, to a connection that takes `k` bytes and then
fails. -/
def writeMessageTo (k : Nat) (type : UInt8) (data : Bytes) : Written :=
  let header : Header := { magic := MagicCode, type := type, len := UInt64.ofNat data.length }
  let w := header.writeTo (BufWriter.new k)
  if w.failed then { got := w.got, left := w.left, count := 0, ok := false }
  else
    let r := w.write data
    let count := UInt64.ofNat r.2 + HeaderLen
    if r.1.failed then { got := r.1.got, left := r.1.left, count := count, ok := false }
    else
      let w := r.1.flush
      { got := w.got, left := w.left, count := count, ok := !w.failed }

/-- p2p/peer.go:131-152: the write handler takes messages, given by type and body, off the queue until a write
fails. What the connection has taken, and what was added to `bytesSent`. -/
def writeAll : Nat → List (UInt8 × Bytes) → Bytes × UInt64
  | _, [] => ([], 0)
  | k, m :: ms =>
    let r := writeMessageTo k m.1 m.2
    if r.ok then
      let t := writeAll r.left ms
      (r.got ++ t.1, r.count + t.2)
    else (r.got, 0)

end Gringo.P2P
