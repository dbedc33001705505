import Verif.Go.Basic
/-
`bufio.Writer` of Go's standard library, on a connection that takes a number of bytes and then fails.
-/
namespace Gringo

/-- A `bufio.Writer` and the connection below it. -/
structure BufWriter where
  /-- what is buffered -/
  buf : Bytes
  /-- the writer's `err` is set -/
  failed : Bool
  /-- what the connection has taken -/
  got : Bytes
  /-- how many bytes the connection is going to take before it fails -/
  left : Nat

namespace BufWriter

/-- `bufio.defaultBufSize` -/
def size : Nat := 4096

/-- `bufio.NewWriter` on a connection that takes `k` bytes -/
def new (k : Nat) : BufWriter := { buf := [], failed := false, got := [], left := k }

/-- The connection's `Write`: it returns how many bytes were taken; an error if that is not all. -/
def direct (w : BufWriter) (p : Bytes) : BufWriter × Nat :=
  let n := min p.length w.left
  ({ w with failed := decide (w.left < p.length), got := w.got ++ p.take n, left := w.left - n }, n)

/-- `(*bufio.Writer).Flush` -/
def flush (w : BufWriter) : BufWriter :=
  if w.failed then w
  else if w.buf.length = 0 then w
  else
    let r := w.direct w.buf
    { r.1 with buf := w.buf.drop r.2 }

/-- `b.Available()` -/
def available (w : BufWriter) : Nat := size - w.buf.length

/-- `(*bufio.Writer).Write`: the loop `for len(p) > b.Available() && b.err == nil`, for at most `fuel` rounds, and
what follows it. `nn` counts the bytes taken. (`writeLoop_enough`: three rounds are always enough.) -/
def writeLoop : Nat → BufWriter → Bytes → Nat → BufWriter × Nat
  | 0, w, _, nn => (w, nn)
  | fuel + 1, w, p, nn =>
    if p.length > w.available ∧ w.failed = false then
      if w.buf.length = 0 then
        let r := w.direct p
        writeLoop fuel r.1 (p.drop r.2) (nn + r.2)
      else
        let n := w.available
        writeLoop fuel ({ w with buf := w.buf ++ p.take n } : BufWriter).flush (p.drop n) (nn + n)
    else if w.failed then (w, nn)
    else ({ w with buf := w.buf ++ p }, nn + p.length)

@[inherit_doc writeLoop] def write (w : BufWriter) (p : Bytes) : BufWriter × Nat := writeLoop 3 w p 0

end BufWriter

end Gringo
