import Verif.Go.Basic
/-
BLAKE2b-256 (RFC 7693), unkeyed: a concrete instance for `Env.blake2b`, used to replay the repository's
test vectors in the kernel. No property theorem depends on it.
-/
namespace Gringo.Blake2b

def iv : List UInt64 :=
  [0x6a09e667f3bcc908, 0xbb67ae8584caa73b, 0x3c6ef372fe94f82b, 0xa54ff53a5f1d36f1,
   0x510e527fade682d1, 0x9b05688c2b3e6c1f, 0x1f83d9abfb41bd6b, 0x5be0cd19137e2179]

def sigma : List (List Nat) :=
  [[0, 1, 2, 3, 4, 5, 6, 7, 8, 9, 10, 11, 12, 13, 14, 15],
   [14, 10, 4, 8, 9, 15, 13, 6, 1, 12, 0, 2, 11, 7, 5, 3],
   [11, 8, 12, 0, 5, 2, 15, 13, 10, 14, 3, 6, 7, 1, 9, 4],
   [7, 9, 3, 1, 13, 12, 11, 14, 2, 6, 5, 10, 4, 0, 15, 8],
   [9, 0, 5, 7, 2, 4, 10, 15, 14, 1, 11, 12, 6, 8, 3, 13],
   [2, 12, 6, 10, 0, 11, 8, 3, 4, 13, 7, 5, 15, 14, 1, 9],
   [12, 5, 1, 15, 14, 13, 4, 10, 0, 7, 6, 3, 9, 2, 8, 11],
   [13, 11, 7, 14, 12, 1, 3, 9, 5, 0, 15, 4, 8, 6, 2, 10],
   [6, 15, 14, 9, 11, 3, 0, 8, 12, 2, 13, 7, 1, 4, 10, 5],
   [10, 2, 8, 4, 7, 6, 1, 5, 15, 11, 9, 14, 3, 12, 13, 0],
   [0, 1, 2, 3, 4, 5, 6, 7, 8, 9, 10, 11, 12, 13, 14, 15],
   [14, 10, 4, 8, 9, 15, 13, 6, 1, 12, 0, 2, 11, 7, 5, 3]]

def rotr (x k : UInt64) : UInt64 := (x >>> k) ||| (x <<< (64 - k))

/-- The mixing function. -/
def g (v : List UInt64) (a b c d : Nat) (x y : UInt64) : List UInt64 :=
  let va := v.getD a 0 + v.getD b 0 + x
  let vd := rotr (v.getD d 0 ^^^ va) 32
  let vc := v.getD c 0 + vd
  let vb := rotr (v.getD b 0 ^^^ vc) 24
  let va := va + vb + y
  let vd := rotr (vd ^^^ va) 16
  let vc := vc + vd
  let vb := rotr (vb ^^^ vc) 63
  (((v.set a va).set b vb).set c vc).set d vd

def round (m : List UInt64) (v : List UInt64) (s : List Nat) : List UInt64 :=
  let x := fun i => m.getD (s.getD i 0) 0
  let v := g v 0 4 8 12 (x 0) (x 1)
  let v := g v 1 5 9 13 (x 2) (x 3)
  let v := g v 2 6 10 14 (x 4) (x 5)
  let v := g v 3 7 11 15 (x 6) (x 7)
  let v := g v 0 5 10 15 (x 8) (x 9)
  let v := g v 1 6 11 12 (x 10) (x 11)
  let v := g v 2 7 8 13 (x 12) (x 13)
  g v 3 4 9 14 (x 14) (x 15)

/-- The compression function; `t` is the number of bytes so far. -/
def compress (h : List UInt64) (block : Bytes) (t : Nat) (last : Bool) : List UInt64 :=
  let m := (List.range 16).map fun i => UInt64.ofNat (ofLE ((block.drop (8 * i)).take 8))
  let v := h ++ iv
  let v := v.set 12 (v.getD 12 0 ^^^ UInt64.ofNat t)
  let v := if last then v.set 14 (~~~ (v.getD 14 0)) else v
  let v := sigma.foldl (round m) v
  (List.range 8).map fun i => h.getD i 0 ^^^ v.getD i 0 ^^^ v.getD (i + 8) 0

/-- Absorb the input; the first argument bounds the number of blocks. -/
def absorb : Nat → List UInt64 → Bytes → Nat → List UInt64
  | 0, h, _, _ => h
  | n + 1, h, b, t =>
    if b.length ≤ 128 then
      compress h (b ++ List.replicate (128 - b.length) 0) (t + b.length) true
    else absorb n (compress h (b.take 128) (t + 128) false) (b.drop 128) (t + 128)

def sum256 (b : Bytes) : Bytes :=
  let h0 := iv.set 0 (iv.getD 0 0 ^^^ 0x01010020)
  ((absorb (b.length / 128 + 1) h0 b 0).take 4).flatMap fun w => le 8 w.toNat

end Gringo.Blake2b
