/-
The fragment of Go and of its standard library that the modelled code relies on:
outcomes of a call, byte streams with EOF, `io.ReadFull`, `io.LimitReader`, `encoding/binary`,
`bytes.Compare`, `sort.IsSorted` and `make`.
-/
namespace Gringo

/-- A Go `[]byte` (or the bytes of a Go `string`). -/
abbrev Bytes := List UInt8

/-- How a Go call can end: a value, a returned `error` (with its text), a run-time panic, or
`logrus.Fatal`, which terminates the process. -/
inductive Out (α : Type) where
  | ok (a : α)
  | err (e : String)
  | panic (p : String)
  | fatal (m : String)
deriving Repr, DecidableEq

namespace Out

/-- Sequencing: anything but a value ends the caller in the same way (`if err != nil { return err }`,
an unrecovered panic, process exit). -/
def bind {α β : Type} : Out α → (α → Out β) → Out β
  | ok a, f => f a
  | err e, _ => err e
  | panic p, _ => panic p
  | fatal m, _ => fatal m

instance : Monad Out where
  pure := ok
  bind := bind

@[simp] theorem pure_def {α : Type} (a : α) : (pure a : Out α) = ok a := rfl
@[simp] theorem bind_ok {α β : Type} (a : α) (f : α → Out β) : (ok a >>= f) = f a := rfl
@[simp] theorem bind_err {α β : Type} (e : String) (f : α → Out β) : (err e >>= f) = err e := rfl
@[simp] theorem bind_panic {α β : Type} (e : String) (f : α → Out β) : (panic e >>= f) = panic e := rfl
@[simp] theorem bind_fatal {α β : Type} (e : String) (f : α → Out β) : (fatal e >>= f) = fatal e := rfl

/-- The call neither panics nor terminates the process. -/
def Safe {α : Type} : Out α → Prop
  | ok _ => True
  | err _ => True
  | panic _ => False
  | fatal _ => False

/-- The call returned without an error. -/
def isOk {α : Type} : Out α → Bool
  | ok _ => true
  | _ => false

end Out

/-- A decoder: `func (x *T) Read(r io.Reader) error` on a receiver that is freshly allocated, as at
every call site in the repository. The stream is the list of bytes the other side sends before the
end of the stream; the second component is what is left of it, also when the call fails. -/
def Rd (α : Type) := Bytes → Out α × Bytes

namespace Rd

/-- Continue with the rest of the stream if the previous step succeeded. -/
def cont {α β : Type} (x : Out α × Bytes) (f : α → Rd β) : Out β × Bytes :=
  match x with
  | (.ok a, r) => f a r
  | (.err e, r) => (.err e, r)
  | (.panic p, r) => (.panic p, r)
  | (.fatal m, r) => (.fatal m, r)

instance : Monad Rd where
  pure a := fun s => (.ok a, s)
  bind x f := fun s => cont (x s) f

@[simp] theorem pure_run {α : Type} (a : α) (s : Bytes) : (pure a : Rd α) s = (.ok a, s) := rfl
@[simp] theorem bind_run {α β : Type} (x : Rd α) (f : α → Rd β) (s : Bytes) :
    (x >>= f) s = cont (x s) f := rfl
@[simp] theorem cont_ok {α β : Type} (a : α) (r : Bytes) (f : α → Rd β) :
    cont (.ok a, r) f = f a r := rfl
@[simp] theorem cont_err {α β : Type} (e : String) (r : Bytes) (f : α → Rd β) :
    cont (.err e, r) f = (.err e, r) := rfl
@[simp] theorem cont_panic {α β : Type} (e : String) (r : Bytes) (f : α → Rd β) :
    cont (.panic e, r) f = (.panic e, r) := rfl
@[simp] theorem cont_fatal {α β : Type} (e : String) (r : Bytes) (f : α → Rd β) :
    cont (.fatal e, r) f = (.fatal e, r) := rfl

/-- `return errors.New(e)` -/
def fail {α : Type} (e : String) : Rd α := fun s => (.err e, s)

/-- A run-time panic. -/
def throwPanic {α : Type} (p : String) : Rd α := fun s => (.panic p, s)

@[simp] theorem fail_run {α : Type} (e : String) (s : Bytes) :
    (fail e : Rd α) s = (.err e, s) := rfl
@[simp] theorem throwPanic_run {α : Type} (e : String) (s : Bytes) :
    (throwPanic e : Rd α) s = (.panic e, s) := rfl

/-- `io.ReadFull(r, buf)` with `len(buf) = n`: all or nothing; a short stream is consumed and gives
`io.EOF` (nothing read) or `io.ErrUnexpectedEOF`. -/
def readFull (n : Nat) : Rd Bytes := fun s =>
  if n ≤ s.length then (.ok (s.take n), s.drop n)
  else if s = [] then (.err "EOF", []) else (.err "unexpected EOF", [])

/-- `io.LimitReader(r, n)` handed to a decoder: the decoder sees at most the next `n` bytes, what it
does not consume stays in the stream. -/
def limit {α : Type} (n : Nat) (rd : Rd α) : Rd α := fun s =>
  ((rd (s.take n)).1, (rd (s.take n)).2 ++ s.drop n)

/-- `make([]T, count)` where a `T` takes `size` bytes: panics when the request exceeds the limit. The
limit is a parameter of the model; on linux/amd64 the run-time's is 2^48 bytes. -/
def make (lim count size : Nat) : Rd Unit :=
  if count * size ≤ lim then pure () else throwPanic "makeslice: len out of range"

/-- `for i := 0; i < n; i++ { if err := x[i].Read(r); err != nil { return err } }` -/
def readMany {α : Type} (n : Nat) (rd : Rd α) : Rd (List α) :=
  match n with
  | 0 => pure []
  | n + 1 => do
    let a ← rd
    let l ← readMany n rd
    pure (a :: l)

end Rd

/-- Big-endian encoding of the low `8 * n` bits of `x` in `n` bytes. -/
def be : Nat → Nat → Bytes
  | 0, _ => []
  | n + 1, x => be n (x / 256) ++ [UInt8.ofNat x]

/-- The number a byte string denotes in big-endian notation. -/
def ofBE (b : Bytes) : Nat := b.foldl (fun a x => a * 256 + x.toNat) 0

/-- The number a byte string denotes in little-endian notation. -/
def ofLE (b : Bytes) : Nat := b.foldr (fun x a => x.toNat + 256 * a) 0

/-- Little-endian encoding of the low `8 * n` bits of `x` in `n` bytes. -/
def le : Nat → Nat → Bytes
  | 0, _ => []
  | n + 1, x => UInt8.ofNat x :: le n (x / 256)

/-- `binary.Write(w, binary.BigEndian, x)` for `uint16`, `uint32`, `uint64`. -/
def be16 (x : UInt16) : Bytes := be 2 x.toNat
@[inherit_doc be16] def be32 (x : UInt32) : Bytes := be 4 x.toNat
@[inherit_doc be16] def be64 (x : UInt64) : Bytes := be 8 x.toNat

namespace Rd

/-- `binary.Read(r, binary.BigEndian, &x)` for `uint8`, `uint16`, `uint32`, `uint64`. -/
def u8 : Rd UInt8 := do
  let b ← readFull 1
  pure (UInt8.ofNat (ofBE b))
@[inherit_doc u8] def u16 : Rd UInt16 := do
  let b ← readFull 2
  pure (UInt16.ofNat (ofBE b))
@[inherit_doc u8] def u32 : Rd UInt32 := do
  let b ← readFull 4
  pure (UInt32.ofNat (ofBE b))
@[inherit_doc u8] def u64 : Rd UInt64 := do
  let b ← readFull 8
  pure (UInt64.ofNat (ofBE b))

end Rd

/-- `bytes.Compare(a, b) < 0`: lexicographic order, a proper prefix comes first. -/
def bytesLt : Bytes → Bytes → Bool
  | [], [] => false
  | [], _ :: _ => true
  | _ :: _, [] => false
  | a :: as, b :: bs => decide (a < b) || (a == b && bytesLt as bs)

/-- `sort.IsSorted`: no element is less than its predecessor. -/
def isSorted {α : Type} (less : α → α → Bool) : List α → Bool
  | a :: b :: t => !less b a && isSorted less (b :: t)
  | _ => true

/-- Two's complement wrap-around of `int64` arithmetic. -/
def wrapI64 (x : Int) : Int := (x + 2 ^ 63) % 2 ^ 64 - 2 ^ 63

end Gringo
