import Verif.Model.Schnorr
import Verif.Concrete.Sha256
import Verif.Concrete.Blake2b
/-
A concrete environment: secp256k1, SHA-256, BLAKE2b-256 and SipHash-2-4. It is used to replay the repository's
test vectors in the kernel, and as an instance for which all assumptions on external code are proved
(Verif/Curve/), so that the theorems of Props/Secp256k1.lean and the examples of Props/Gaps.lean need none. Range
proofs are opaque byte strings and always accepted. The external libraries are not in the repository; this is the
author's reading of what they compute, and the test vectors of the repository support it.
-/
namespace Gringo.Concrete

/-- The field prime. -/
def p : Nat := 2 ^ 256 - 2 ^ 32 - 977

/-- Square and multiply; the first argument bounds the number of exponent bits. -/
def powMod : Nat → Nat → Nat → Nat → Nat
  | 0, _, _, acc => acc
  | n + 1, b, e, acc => powMod n (b * b % p) (e / 2) (if e % 2 = 1 then acc * b % p else acc)

def inv (x : Nat) : Nat := powMod 256 (x % p) (p - 2) 1

/-- `x^((p+1)/4)`: the square root that is itself a square. -/
def modSqrt (x : Nat) : Nat := powMod 256 (x % p) ((p + 1) / 4) 1

/-- Jacobian coordinates; `z = 0` is infinity. -/
structure Jac where
  x : Nat
  y : Nat
  z : Nat

def sub (a b : Nat) : Nat := (a + (p - b)) % p

def Jac.dbl (q : Jac) : Jac :=
  if q.z = 0 ∨ q.y = 0 then ⟨1, 1, 0⟩ else
  let a := q.x * q.x % p
  let b := q.y * q.y % p
  let c := b * b % p
  let d := 2 * (sub (sub ((q.x + b) * (q.x + b) % p) a) c) % p
  let e := 3 * a % p
  let f := e * e % p
  let x3 := sub f (2 * d % p)
  ⟨x3, sub (e * sub d x3 % p) (8 * c % p), 2 * q.y * q.z % p⟩

def Jac.add (q r : Jac) : Jac :=
  if q.z = 0 then r else if r.z = 0 then q else
  let z1z1 := q.z * q.z % p
  let z2z2 := r.z * r.z % p
  let u1 := q.x * z2z2 % p
  let u2 := r.x * z1z1 % p
  let s1 := q.y * r.z * z2z2 % p
  let s2 := r.y * q.z * z1z1 % p
  if u1 = u2 then (if s1 = s2 then q.dbl else ⟨1, 1, 0⟩)
  else
    let h := sub u2 u1
    let rr := sub s2 s1
    let hh := h * h % p
    let hhh := h * hh % p
    let v := u1 * hh % p
    let x3 := sub (sub (rr * rr % p) hhh) (2 * v % p)
    ⟨x3, sub (rr * sub v x3 % p) (s1 * hhh % p), q.z * r.z * h % p⟩

def Jac.ofPoint (q : Point) : Jac := if q = ⟨0, 0⟩ then ⟨1, 1, 0⟩ else ⟨q.X, q.Y, 1⟩

def Jac.toPoint (q : Jac) : Point :=
  if q.z = 0 then ⟨0, 0⟩
  else
    let zi := inv q.z
    let zi2 := zi * zi % p
    ⟨q.x * zi2 % p, q.y * zi2 * zi % p⟩

/-- Double and add; the first argument bounds the number of scalar bits. -/
def Jac.mul : Nat → Jac → Nat → Jac → Jac
  | 0, _, _, acc => acc
  | n + 1, q, k, acc => Jac.mul n q.dbl (k / 2) (if k % 2 = 1 then acc.add q else acc)

def smul (q : Point) (k : Nat) : Point := (Jac.mul 256 (Jac.ofPoint q) (k % Secp.N) ⟨1, 1, 0⟩).toPoint

def padd (q r : Point) : Point := ((Jac.ofPoint q).add (Jac.ofPoint r)).toPoint

/-- Tag 8 if `Y` is a square, 9 if not. -/
def pointBytes (q : Point) : Bytes :=
  (if q.Y % p = modSqrt (q.X * q.X * q.X + 7) then (8 : UInt8) else 9) :: be 32 q.X

def pointRead : Rd Point := do
  let t ← Rd.u8
  let xb ← Rd.readFull 32
  let x := ofBE xb
  let y := modSqrt (x * x * x + 7)
  if t ≠ 8 ∧ t ≠ 9 then Rd.fail "bad tag"
  else if y * y % p ≠ (x * x * x + 7) % p then Rd.fail "not on the curve"
  else pure ⟨x, if t = 8 then y else p - y⟩

/-- SipHash-2-4 on byte strings, github.com/dchest/siphash. -/
structure Sip where
  v0 : UInt64
  v1 : UInt64
  v2 : UInt64
  v3 : UInt64

def rotl (x k : UInt64) : UInt64 := (x <<< k) ||| (x >>> (64 - k))

def Sip.round (s : Sip) : Sip :=
  let v0 := s.v0 + s.v1
  let v1 := rotl s.v1 13 ^^^ v0
  let v0 := rotl v0 32
  let v2 := s.v2 + s.v3
  let v3 := rotl s.v3 16 ^^^ v2
  let v0 := v0 + v3
  let v3 := rotl v3 21 ^^^ v0
  let v2 := v2 + v1
  let v1 := rotl v1 17 ^^^ v2
  let v2 := rotl v2 32
  ⟨v0, v1, v2, v3⟩

def Sip.word (s : Sip) (m : UInt64) : Sip :=
  let s := ({ s with v3 := s.v3 ^^^ m }).round.round
  { s with v0 := s.v0 ^^^ m }

def sipWords : Nat → Bytes → Sip → Sip
  | 0, _, s => s
  | n + 1, b, s => sipWords n (b.drop 8) (s.word (UInt64.ofNat (ofLE (b.take 8))))

def siphash (k0 k1 : UInt64) (b : Bytes) : UInt64 :=
  let s : Sip := ⟨k0 ^^^ 0x736f6d6570736575, k1 ^^^ 0x646f72616e646f6d, k0 ^^^ 0x6c7967656e657261,
    k1 ^^^ 0x7465646279746573⟩
  let s := sipWords (b.length / 8) b s
  let s := s.word (UInt64.ofNat (ofLE (b.drop (b.length / 8 * 8)) + b.length % 256 * 2 ^ 56))
  let s := ({ s with v2 := s.v2 ^^^ 0xff }).round.round.round.round
  s.v0 ^^^ s.v1 ^^^ s.v2 ^^^ s.v3

def sortBy {α : Type} (less : α → α → Bool) (l : List α) : List α :=
  l.foldr (fun a acc => acc.takeWhile (fun b => less b a) ++ a :: acc.dropWhile (fun b => less b a)) []

/-- Range proofs are opaque: everything up to the end of the (limited) stream. -/
abbrev env : Env where
  maxAlloc := 2 ^ 48
  outputSize := 400
  blake2b := Blake2b.sum256
  sha256 := Sha256.sum256
  siphash := siphash
  pointBytes := pointBytes
  pointRead := pointRead
  Prf := Bytes
  prfBytes := id
  prfRead := fun s => (.ok s, [])
  rangeVerify := fun _ _ => true
  smul := smul
  padd := padd
  ssum := fun a b => (a + b) % Secp.N
  smulS := fun a b => a * b % Secp.N
  getB32 := be 32
  modSqrt := modSqrt
  now := ⟨1543822100 + 62135596800, 0⟩
  sortBy := sortBy

/-- `n` bytes given as one hexadecimal number. -/
def hex (n x : Nat) : Bytes := go n x []
where
  go : Nat → Nat → Bytes → Bytes
  | 0, _, acc => acc
  | n + 1, x, acc => go n (x / 256) (UInt8.ofNat x :: acc)

end Gringo.Concrete
